import Verif.Env.Create

/-! # Helper lemmas for `Environment.create` -/

namespace Verif.Env.Create

open Verif.Utils.Py

/-- Names that are arguments of `create` itself. -/
def reserved : List String := ["environment", "type", "max_episode_timesteps", "reward_shaping"]

/-- No dictionary has a name twice. -/
def World.Ok (w : World) : Prop :=
  (∀ n spec, w.file n = some spec → UniqE spec) ∧ (∀ n v, w.registry n = some v → Uniq v) ∧
    ∀ n v, w.library n = some v → Uniq v

theorem find_del (kw : Kw) (k j : String) (h : k ≠ j) : (del k kw).find j = kw.find j := by
  match kw with
  | .nil => rfl
  | .cons i x es =>
    simp only [del]
    split
    · rename_i e; subst e; simp [Ents.find, h]
    · simp only [Ents.find, find_del es k j h]

theorem find_del_none (kw : Kw) (k j : String) (h : kw.find j = none) : (del k kw).find j = none := by
  match kw with
  | .nil => rfl
  | .cons i x es =>
    simp only [Ents.find] at h
    split at h
    · simp at h
    · rename_i e
      simp only [del]
      split
      · exact h
      · simp only [Ents.find, e, if_false, find_del_none es k j h]

theorem uniq_del (kw : Kw) (k : String) (h : UniqE kw) : UniqE (del k kw) := by
  match kw with
  | .nil => trivial
  | .cons i x es =>
    simp only [del]
    split
    · exact h.2.2
    · exact ⟨h.1, find_del_none es k i h.2.1, uniq_del es k h.2.2⟩

theorem uniq_dropIf (b : Bool) (kw : Kw) (k : String) (h : UniqE kw) : UniqE (dropIf b k kw) := by
  unfold dropIf; split
  · exact uniq_del kw k h
  · exact h

theorem find_dropIf (b : Bool) (kw : Kw) (k j : String) (h : k ≠ j) : (dropIf b k kw).find j = kw.find j := by
  unfold dropIf; split
  · exact find_del kw k j h
  · rfl

theorem uniq_put (kw : Kw) (k : String) (v : V) (h : UniqE kw) (hv : Uniq v) : UniqE (kw.put k v) := by
  match kw with
  | .nil => exact ⟨hv, rfl, trivial⟩
  | .cons i x es =>
    simp only [Ents.put]
    split
    · exact ⟨hv, h.2.1, h.2.2⟩
    · rename_i e
      exact ⟨h.1, by rw [find_put_other es k i v (Ne.symm e)]; exact h.2.1, uniq_put es k v h.2.2 hv⟩

mutual
theorem uniq_merge (t s m : Kw) (ht : UniqE t) (hs : UniqE s) (h : merge t s = some m) : UniqE m := by
  match s with
  | .nil => simp only [merge, Option.some.injEq] at h; subst h; exact ht
  | .cons k v s =>
    simp only [merge] at h
    split at h
    · exact uniq_merge _ s m (uniq_put t k v ht hs.1) hs.2.2 h
    · rename_i old ho
      split at h
      · simp at h
      · rename_i new hn
        exact uniq_merge _ s m (uniq_put t k new ht (uniq_mergeVal old v new (uniq_find t ht k old ho) hs.1 hn)) hs.2.2 h
theorem uniq_mergeVal (a b c : V) (ha : Uniq a) (hb : Uniq b) (h : mergeVal a b = some c) : Uniq c := by
  match a, b with
  | .dct t, .dct s =>
    simp only [mergeVal, Option.map_eq_some_iff] at h
    obtain ⟨m, hm, rfl⟩ := h
    exact uniq_merge t s m ha hb hm
  | .atom _, b => rw [(mergeVal_plain _ b c h rfl).1]; exact ha
  | .tup _, b => rw [(mergeVal_plain _ b c h rfl).1]; exact ha
  | .lst _, b => rw [(mergeVal_plain _ b c h rfl).1]; exact ha
  | .arr _, b => rw [(mergeVal_plain _ b c h rfl).1]; exact ha
  | .dct t, .atom _ => simp [mergeVal] at h
  | .dct t, .tup _ => simp [mergeVal] at h
  | .dct t, .lst _ => simp [mergeVal] at h
  | .dct t, .arr _ => simp [mergeVal] at h
end

/-- Every setting (not a dictionary itself) under a name that is no argument of `create` is also in `kw'`. -/
def Kept (kw kw' : Kw) : Prop :=
  ∀ k p v, k ∉ reserved → v.isDict = false → (Val.dct kw).at (k :: p) = some v → (Val.dct kw').at (k :: p) = some v

theorem kept_trans {a b c : Kw} (h1 : Kept a b) (h2 : Kept b c) : Kept a c :=
  fun k p v hk hv h => h2 k p v hk hv (h1 k p v hk hv h)

theorem kept_put (kw : Kw) (k : String) (v : V) (h : kw.find k = none) : Kept kw (kw.put k v) := by
  intro j p u _ _ hu
  simp only [Val.at] at hu ⊢
  by_cases e : k = j
  · subst e; rw [h] at hu; simp at hu
  · rw [find_put_other kw k j v e]; exact hu

/-- Unpacking a specification keeps keyword arguments and explicit limit and shaping. -/
theorem unpack_keeps (spec : Kw) (hu : UniqE spec) (limit shaping : V) (kwargs : Kw) (hk : UniqE kwargs) (e l s : V)
    (kw : Kw) (h : unpack spec limit shaping kwargs = some (e, l, s, kw)) :
    Uniq e ∧ UniqE kw ∧ (pyEq limit none' = false → l = limit) ∧ (pyEq shaping none' = false → s = shaping) ∧
    Kept kwargs kw ∧
    ∀ k p v, k ∉ reserved → v.isDict = false → (Val.dct spec).at (k :: p) = some v →
      ∃ u, (Val.dct kw).at (k :: p) = some u ∧ (u = v ∨ (u.isDict = false ∧ Agree u v)) := by
  simp only [unpack] at h
  split at h
  · simp at h
  · rename_i m hm
    have hum := uniq_merge kwargs spec m hk hu hm
    split at h
    · simp at h
    · split at h
      · simp at h
      · simp only [Option.some.injEq, Prod.mk.injEq] at h
        obtain ⟨rfl, rfl, rfl, rfl⟩ := h
        have hsame : ∀ k, k ∉ reserved → ∀ p,
            (Val.dct (dropIf (pyEq shaping none') "reward_shaping" (dropIf (pyEq limit none') "max_episode_timesteps"
              (del "environment" (del "type" m))))).at (k :: p) = (Val.dct m).at (k :: p) := by
          intro k hk p
          simp only [reserved, List.mem_cons, List.not_mem_nil, or_false, not_or] at hk
          obtain ⟨k1, k2, k3, k4⟩ := hk
          simp only [Val.at]
          rw [find_dropIf _ _ _ _ (Ne.symm k4), find_dropIf _ _ _ _ (Ne.symm k3), find_del _ _ _ (Ne.symm k1),
            find_del _ _ _ (Ne.symm k2)]
        refine ⟨?_, uniq_dropIf _ _ _ (uniq_dropIf _ _ _ (uniq_del _ _ (uniq_del _ _ hum))),
          fun e => by simp [e], fun e => by simp [e], fun k p v hk hv h => ?_, fun k p v hk hv h => ?_⟩
        · cases h1 : m.find "environment" with
          | some x => simpa using uniq_find m hum _ x h1
          | none =>
            cases h2 : m.find "type" with
            | some x => simpa using uniq_find m hum _ x h2
            | none => trivial
        · rw [hsame k hk p]
          exact keeps_target (k :: p) (.dct kwargs) (.dct spec) (.dct m) hu (by simp [mergeVal, hm]) v h hv
        · rw [hsame k hk p]
          have hmm : mergeVal (.dct kwargs) (.dct spec) = some (.dct m) := by simp [mergeVal, hm]
          obtain ⟨u, h1, h2⟩ := keeps_source (k :: p) (.dct kwargs) (.dct spec) (.dct m) hu hmm v h hv
          refine ⟨u, h1, ?_⟩
          rcases h2 with h2 | ⟨_, h2⟩
          · exact .inl h2
          · refine .inr ⟨?_, h2⟩
            cases hd : u.isDict with
            | false => rfl
            | true =>
              exfalso
              cases u with
              | dct es => cases v <;> simp_all [Agree, Val.elems, pyEq, Val.isDict]
              | _ => simp [Val.isDict] at hd

/-- A name of the specification is in the merged keyword arguments. -/
theorem merge_has (t s m : Kw) (hu : UniqE s) (h : merge t s = some m) (k : String) (hk : has k s = true) :
    has k m = true := by
  simp only [has, Option.isSome_iff_exists] at hk ⊢
  obtain ⟨b, hb⟩ := hk
  cases ha : t.find k with
  | none => exact ⟨b, by rw [merge_find t s m hu h k, ha, hb]; rfl⟩
  | some a =>
    obtain ⟨c, _, hc⟩ := merge_some_of t s m hu h k a b ha hb
    exact ⟨c, hc⟩

/-- A limit or shaping given explicitly and in the specification is refused. -/
theorem unpack_twice (spec : Kw) (hu : UniqE spec) (limit shaping : V) (kwargs : Kw)
    (h : (pyEq limit none' = false ∧ has "max_episode_timesteps" spec = true) ∨
      (pyEq shaping none' = false ∧ has "reward_shaping" spec = true)) :
    unpack spec limit shaping kwargs = none := by
  cases hr : unpack spec limit shaping kwargs with
  | none => rfl
  | some r =>
    exfalso
    simp only [unpack] at hr
    split at hr
    · simp at hr
    · rename_i m hm
      split at hr
      · simp at hr
      · split at hr
        · simp at hr
        · rename_i hn
          simp only [Bool.or_eq_true, not_or, Bool.not_eq_true] at hn
          obtain ⟨n1, n2⟩ := hn
          rcases h with ⟨h1, h2⟩ | ⟨h1, h2⟩
          · have := merge_has kwargs spec m hu hm _ h2
            simp only [has] at n1 this
            rw [find_dropIf _ _ _ _ (by decide), h1] at n1
            simp only [dropIf, Bool.false_eq_true, if_false] at n1
            rw [find_del _ _ _ (by decide), find_del _ _ _ (by decide), this] at n1
            cases n1
          · have := merge_has kwargs spec m hu hm _ h2
            simp only [has] at n2 this
            rw [h1] at n2
            simp only [dropIf, Bool.false_eq_true, if_false] at n2
            have n3 : (dropIf (pyEq limit none') "max_episode_timesteps" (del "environment" (del "type" m))).find
                "reward_shaping" = m.find "reward_shaping" := by
              rw [find_dropIf _ _ _ _ (by decide), find_del _ _ _ (by decide), find_del _ _ _ (by decide)]
            simp only [dropIf] at n3
            rw [n3, this] at n2
            cases n2

/-- What a returned environment owes to the arguments. -/
def Honours (limit shaping : V) (kwargs : Kw) (e : Env) : Prop :=
  (pyEq limit none' = false → e.limit = limit ∨ pyEq limit e.limit = true) ∧
  (pyEq shaping none' = false → e.shaping = shaping ∨ ∃ i l, e.source = .wrapped i l) ∧
  (Kept kwargs .nil ∨ (∃ c kw, e.source = .built c kw ∧ Kept kwargs kw) ∨ ∃ i, e.source = .given i)

theorem honours_mono {limit shaping limit' shaping' : V} {kwargs kwargs' : Kw} {e : Env}
    (hl : pyEq limit none' = false → limit' = limit) (hs : pyEq shaping none' = false → shaping' = shaping)
    (hk : Kept kwargs kwargs') (h : Honours limit' shaping' kwargs' e) : Honours limit shaping kwargs e := by
  refine ⟨fun n => ?_, fun n => ?_, ?_⟩
  · have := hl n; subst this; exact h.1 n
  · have := hs n; subst this; exact h.2.1 n
  · rcases h.2.2 with h | ⟨c, kw, h1, h2⟩ | h
    · exact .inl (kept_trans hk h)
    · exact .inr (.inl ⟨c, kw, h1, kept_trans hk h2⟩)
    · exact .inr (.inr h)

theorem create_honours (w : World) (hw : w.Ok) (fuel : Nat) (env limit shaping : V) (kwargs : Kw) (he : Uniq env)
    (hk : UniqE kwargs) (e : Env) (h : create w fuel env limit shaping kwargs = .env e) :
    Honours limit shaping kwargs e := by
  induction fuel generalizing env limit shaping kwargs with
  | zero => simp [create] at h
  | succ fuel ih =>
    have step : ∀ spec, UniqE spec →
        (match unpack spec limit shaping kwargs with
          | none => Out.error
          | some (e, l, s, kw) => create w fuel e l s kw) = .env e → Honours limit shaping kwargs e := by
      intro spec hspec hh
      split at hh
      · simp at hh
      · rename_i e' l s kw hun
        obtain ⟨u1, u2, u3, u4, u5, _⟩ := unpack_keeps spec hspec limit shaping kwargs hk e' l s kw hun
        exact honours_mono u3 u4 u5 (ih e' l s kw u1 u2 hh)
    have level : ∀ v : V, Uniq v →
        (if has "level" kwargs = true then Out.error
          else create w fuel (.atom (.str "gym")) limit shaping (kwargs.put "level" v)) = .env e →
        Honours limit shaping kwargs e := by
      intro v hv hh
      split at hh
      · simp at hh
      · rename_i hn
        have hf : kwargs.find "level" = none := by simpa [has] using hn
        exact honours_mono (fun _ => rfl) (fun _ => rfl) (kept_put kwargs "level" v hf)
          (ih (.atom (.str "gym")) _ _ _ trivial (uniq_put kwargs "level" v hk hv) hh)
    unfold create at h
    split at h
    · simp at h
    · split at h
      · rename_i i l
        split at h
        · simp at h
        · rename_i hl
          split at h
          · simp at h
          · rename_i hlen
            simp only [Out.env.injEq] at h
            subst h
            refine ⟨fun n => ?_, fun _ => .inr ⟨i, l, rfl⟩, .inl ?_⟩
            · right; simpa [n] using hl
            · cases kwargs with
              | nil => exact fun _ _ _ _ _ h => h
              | cons _ _ _ => simp [Ents.length] at hlen
      · simp at h
      · rename_i i
        simp only [Out.env.injEq] at h
        subst h
        exact ⟨fun _ => .inl rfl, fun _ => .inl rfl, .inr (.inr ⟨i, rfl⟩)⟩
      · rename_i c
        split at h
        · simp only [Out.env.injEq] at h
          subst h
          exact ⟨fun _ => .inl rfl, fun _ => .inl rfl, .inr (.inl ⟨c, kwargs, rfl, fun _ _ _ _ _ h => h⟩)⟩
        · simp at h
      · rename_i spec
        exact step spec he h
      · rename_i name
        split at h
        · rename_i spec hf
          exact step spec (hw.1 name spec hf) h
        · split at h
          · rename_i v hr
            exact ih v limit shaping kwargs (hw.2.1 name v hr) hk h
          · split at h
            · rename_i v hr
              exact ih v limit shaping kwargs (hw.2.2 name v hr) hk h
            · exact level (.atom _) trivial h
      · exact level (.atom _) trivial h
      · simp at h

end Verif.Env.Create
