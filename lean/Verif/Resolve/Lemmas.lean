import Verif.Resolve.Spec
import Verif.Utils.PyLemmas

/-! # Helper lemmas for module specifications -/

namespace Verif.Resolve

open Verif.Utils.Py

theorem find_del (kw : Kw) (k j : String) (h : k ≠ j) : (del k kw).find j = kw.find j := by
  match kw with
  | .nil => rfl
  | .cons i x es =>
    simp only [del]
    split
    · rename_i e; subst e; simp [Ents.find, h]
    · simp only [Ents.find, find_del es k j h]

theorem find_del_none (kw : Kw) (k j : String) (h : kw.find j = none) : (del k kw).find j = none := by
  match kw with
  | .nil => rfl
  | .cons i x es =>
    simp only [Ents.find] at h
    split at h
    · simp at h
    · rename_i e
      simp only [del]
      split
      · exact h
      · simp only [Ents.find, e, if_false, find_del_none es k j h]

theorem find_del_self (kw : Kw) (hu : UniqE kw) (k : String) : (del k kw).find k = none := by
  match kw with
  | .nil => rfl
  | .cons i x es =>
    simp only [del]
    split
    · rename_i e; subst e; exact hu.2.1
    · rename_i e; simp only [Ents.find, e, if_false, find_del_self es hu.2.2 k]

theorem uniq_del (kw : Kw) (k : String) (h : UniqE kw) : UniqE (del k kw) := by
  match kw with
  | .nil => trivial
  | .cons i x es =>
    simp only [del]
    split
    · exact h.2.2
    · exact ⟨h.1, find_del_none es k i h.2.1, uniq_del es k h.2.2⟩

theorem uniq_put (kw : Kw) (k : String) (v : V) (h : UniqE kw) (hv : Uniq v) : UniqE (kw.put k v) := by
  match kw with
  | .nil => exact ⟨hv, rfl, trivial⟩
  | .cons i x es =>
    simp only [Ents.put]
    split
    · exact ⟨hv, h.2.1, h.2.2⟩
    · rename_i e
      exact ⟨h.1, by rw [find_put_other es k i v (Ne.symm e)]; exact h.2.1, uniq_put es k v h.2.2 hv⟩

mutual
theorem uniq_merge (t s m : Kw) (ht : UniqE t) (hs : UniqE s) (h : merge t s = some m) : UniqE m := by
  match s with
  | .nil => simp only [merge, Option.some.injEq] at h; subst h; exact ht
  | .cons k v s =>
    simp only [merge] at h
    split at h
    · exact uniq_merge _ s m (uniq_put t k v ht hs.1) hs.2.2 h
    · rename_i old ho
      split at h
      · simp at h
      · rename_i new hn
        exact uniq_merge _ s m (uniq_put t k new ht (uniq_mergeVal old v new (uniq_find t ht k old ho) hs.1 hn)) hs.2.2 h
theorem uniq_mergeVal (a b c : V) (ha : Uniq a) (hb : Uniq b) (h : mergeVal a b = some c) : Uniq c := by
  match a, b with
  | .dct t, .dct s =>
    simp only [mergeVal, Option.map_eq_some_iff] at h
    obtain ⟨m, hm, rfl⟩ := h
    exact uniq_merge t s m ha hb hm
  | .atom _, b => rw [(mergeVal_plain _ b c h rfl).1]; exact ha
  | .tup _, b => rw [(mergeVal_plain _ b c h rfl).1]; exact ha
  | .lst _, b => rw [(mergeVal_plain _ b c h rfl).1]; exact ha
  | .arr _, b => rw [(mergeVal_plain _ b c h rfl).1]; exact ha
  | .dct t, .atom _ => simp [mergeVal] at h
  | .dct t, .tup _ => simp [mergeVal] at h
  | .dct t, .lst _ => simp [mergeVal] at h
  | .dct t, .arr _ => simp [mergeVal] at h
end

/-- A dictionary in the merged configuration comes from a dictionary of one side. -/
theorem origin_dict (p : List String) (a b c : V) (hu : Uniq b) (h : mergeVal a b = some c) (v : V)
    (hc : c.at p = some v) (hv : v.isDict = true) :
    (∃ u, a.at p = some u ∧ u.isDict = true) ∨ ∃ u, b.at p = some u ∧ u.isDict = true := by
  induction p generalizing a b c with
  | nil =>
    simp only [Val.at, Option.some.injEq] at hc
    subst hc
    cases hd : a.isDict with
    | false => rw [(mergeVal_plain a b c h hd).1, hd] at hv; simp at hv
    | true => exact .inl ⟨a, by simp [Val.at], hd⟩
  | cons k p ih =>
    cases a with
    | dct t =>
      obtain ⟨s, m, rfl, rfl, hm⟩ := mergeVal_dict t b c h
      have hf := merge_find t s m hu hm k
      simp only [Val.at] at hc ⊢
      split at hc
      · rename_i c' hc'
        cases ht : t.find k with
        | none =>
          rw [ht, hc'] at hf
          simp only [combine] at hf
          right; rw [← hf]; exact ⟨v, hc, hv⟩
        | some a' =>
          cases hs : s.find k with
          | none =>
            rw [ht, hs, hc'] at hf
            simp only [combine, Option.some.injEq] at hf
            subst hf
            left; exact ⟨v, hc, hv⟩
          | some b' =>
            obtain ⟨c'', q1, q2⟩ := merge_some_of t s m hu hm k a' b' ht hs
            rw [hc'] at q2
            cases q2
            exact ih a' b' c' (uniq_find s hu k b' hs) q1 hc
      · simp at hc
    | _ =>
      have hp := (mergeVal_plain _ b c h rfl).1
      subst hp
      simp [Val.at] at hc

theorem at_congr {a b : Kw} (k : String) (h : a.find k = b.find k) (p : List String) :
    (Val.dct a).at (k :: p) = (Val.dct b).at (k :: p) := by simp only [Val.at, h]

/-! ### Settings -/

theorem not_special {k : String} (h : k ∉ special) : k ≠ "type" ∧ k ≠ "_first_arg" ∧ k ≠ "name" := by
  simpa [special] using h

theorem setting_iff {a b : Kw} (h : ∀ k, k ∉ special → a.find k = b.find k) (k : String) (p : List String) (v : V) :
    Setting a k p v ↔ Setting b k p v := by
  unfold Setting
  constructor
  · rintro ⟨h1, h2, h3⟩; exact ⟨h1, h2, by rw [← at_congr k (h k h1)]; exact h3⟩
  · rintro ⟨h1, h2, h3⟩; exact ⟨h1, h2, by rw [at_congr k (h k h1)]; exact h3⟩

theorem setting_call (name : String) (c : Atom) (kw : Kw) (k : String) (p : List String) (v : V) :
    Setting (call name c kw).kwargs k p v ↔ Setting kw k p v := by
  refine setting_iff (fun k hk => ?_) k p v
  obtain ⟨_, h2, h3⟩ := not_special hk
  simp only [call]
  rw [find_put_other _ _ _ _ (Ne.symm h3), find_del _ _ _ (Ne.symm h2)]

theorem setting_put (kw : Kw) (x : V) (k : String) (p : List String) (v : V) :
    Setting (kw.put "_first_arg" x) k p v ↔ Setting kw k p v :=
  setting_iff (fun k hk => find_put_other _ _ _ _ (Ne.symm (not_special hk).2.1)) k p v

theorem setting_del (kw : Kw) (k : String) (p : List String) (v : V) :
    Setting (del "type" kw) k p v ↔ Setting kw k p v :=
  setting_iff (fun k hk => find_del _ _ _ (Ne.symm (not_special hk).1)) k p v

theorem internal_call (name : String) (c : Atom) (kw : Kw) (hu : UniqE kw) : has "_first_arg" (call name c kw).kwargs = false := by
  simp only [call, has, find_put_other _ "name" "_first_arg" _ (by decide), find_del_self kw hu, Option.isSome_none]

theorem good_call (name : String) (c : Atom) (kw : Kw) (hu : UniqE kw) : Good name kw [] none (call name c kw) where
  given k p v h := (setting_call name c kw k p v).2 h
  settings := nofun
  only k p v h := .inl ((setting_call name c kw k p v).1 h)
  called := by simp only [call]; exact find_put_same _ _ _
  positional := nofun
  noFirst h _ := by simpa [has, call] using h
  internal := internal_call name c kw hu
  once := nofun

theorem good_put (name : String) (c : Atom) (kw : Kw) (hu : UniqE kw) (x : V) (hx : Uniq x) (hf : has "_first_arg" kw = false) :
    Good name kw [] (some x) (call name c (kw.put "_first_arg" x)) where
  given k p v h := (setting_call name c _ k p v).2 ((setting_put kw x k p v).2 h)
  settings := nofun
  only k p v h := .inl ((setting_put kw x k p v).1 ((setting_call name c _ k p v).1 h))
  called := by simp only [call]; exact find_put_same _ _ _
  positional v h := by simp only [call]; rw [find_put_same]; exact h
  noFirst _ _ := by simp only [call]; exact find_put_same _ _ _
  internal := internal_call name c _ (uniq_put kw _ x hu hx)
  once _ _ := ⟨hf, nofun⟩

theorem good_merge (name : String) (kw spec m : Kw) (hs : UniqE spec) (hm : merge kw spec = some m)
    (ds : List Kw) (first : Option V) (r : Built) (h : Good name (del "type" m) ds first r) : Good name kw (spec :: ds) first r := by
  have hmm : mergeVal (.dct kw) (.dct spec) = some (.dct m) := by simp [mergeVal, hm]
  refine ⟨fun k p v hv => ?_, fun d hd k p v hv => ?_, fun k p v hv => ?_, h.called, h.positional, fun h1 h2 => ?_, h.internal,
    fun v hv => ?_⟩
  · exact h.given k p v ((setting_del m k p v).2 ⟨hv.1, hv.2.1, keeps_target (k :: p) (.dct kw) (.dct spec) (.dct m) hs hmm v hv.2.2 hv.2.1⟩)
  · rcases List.mem_cons.1 hd with e | hd
    · subst e
      obtain ⟨u, q1, q2⟩ := keeps_source (k :: p) (.dct kw) (.dct _) (.dct m) hs hmm v hv.2.2 hv.2.1
      have hud : u.isDict = false := by
        rcases q2 with rfl | ⟨q2, q3⟩
        · exact hv.2.1
        · cases u with
          | dct t =>
            have hx := hv.2.1
            simp only [Agree, Val.elems] at q3
            cases v <;> simp_all [Val.elems, Val.isDict, pyEq]
          | _ => rfl
      exact ⟨u, h.given k p u ((setting_del m k p u).2 ⟨hv.1, hud, q1⟩), q2.imp id (·.2)⟩
    · exact h.settings d hd k p v hv
  · rcases h.only k p v hv with h1 | ⟨d, hd, h1⟩
    · have h2 := (setting_del m k p v).1 h1
      rcases origin (k :: p) (.dct kw) (.dct spec) (.dct m) hs hmm v h2.2.2 h2.2.1 with h3 | h3
      · exact .inl ⟨h2.1, h2.2.1, h3⟩
      · exact .inr ⟨spec, List.mem_cons_self, h2.1, h2.2.1, h3⟩
    · exact .inr ⟨d, List.mem_cons_of_mem _ hd, h1⟩
  · refine h.noFirst ?_ (fun d hd => h2 d (List.mem_cons_of_mem _ hd))
    have h3 := h2 spec List.mem_cons_self
    simp only [has, Option.isSome_eq_false_iff, Option.isNone_iff_eq_none] at h1 h3 ⊢
    rw [find_del _ _ _ (by decide), merge_find kw spec m hs hm, h1, h3]
    rfl
  · obtain ⟨h1, h2⟩ := h.once v hv
    simp only [has, Option.isSome_eq_false_iff, Option.isNone_iff_eq_none] at h1
    rw [find_del _ _ _ (by decide)] at h1
    have h3 : kw.find "_first_arg" = none ∧ spec.find "_first_arg" = none := by
      have h4 := merge_find kw spec m hs hm "_first_arg"
      rw [h1] at h4
      cases ha : kw.find "_first_arg" with
      | none => rw [ha] at h4; exact ⟨rfl, h4.symm⟩
      | some a =>
        cases hb : spec.find "_first_arg" with
        | none => rw [ha, hb] at h4; cases h4
        | some b =>
          obtain ⟨c, _, hc⟩ := merge_some_of kw spec m hs hm _ a b ha hb
          rw [h1] at hc; cases hc
    refine ⟨by simp [has, h3.1], fun d hd => ?_⟩
    rcases List.mem_cons.1 hd with e | hd
    · subst e; simp [has, h3.2]
    · exact h2 d hd

/-! ### Defaults -/

theorem defaultFits_ok (m : Modules) (d : Option Default) (h : DefaultFits m d) : defaultOk (some m) d = true := by
  match d, h with
  | none, _ => rfl
  | some (.key s), ⟨c, hc⟩ => show (m.entries.lookup s).isSome = true; rw [hc]; rfl
  | some (.cls _ _), h => exact h

theorem default_is (m : Modules) (d : Option Default) (e : V) (h : defaultModule m d = some e) (hd : defaultOk (some m) d = true) :
    ∃ c, DefaultIs m d c ∧ (e = .atom (.cls c) ∨ ∃ s, d = some (.key s) ∧ e = .atom (.str s) ∧ m.entries.lookup s = some c) := by
  match d with
  | none =>
    simp only [defaultModule, Option.map_eq_some_iff] at h
    obtain ⟨c, hc, rfl⟩ := h
    exact ⟨c, .registered c hc, .inl rfl⟩
  | some (.key s) =>
    simp only [defaultOk, Option.isSome_iff_exists] at hd
    obtain ⟨c, hc⟩ := hd
    simp only [defaultModule, defaultVal, Option.some.injEq] at h
    exact ⟨c, .key s c hc, .inr ⟨s, rfl, h.symm, hc⟩⟩
  | some (.cls c b) =>
    simp only [defaultModule, defaultVal, Option.some.injEq] at h
    exact ⟨c, .cls c b, .inl h.symm⟩

theorem no_default (m : Modules) (d : Option Default) (h : defaultModule m d = none) (c : Nat) : ¬ DefaultIs m d c := by
  intro hc
  cases hc with
  | cls | key => simp [defaultModule] at h
  | registered _ h1 => simp [defaultModule, h1] at h

theorem default_of (m : Modules) (d : Option Default) (c : Nat) (h : DefaultIs m d c) :
    ∃ e, defaultModule m d = some e ∧ (e = .atom (.cls c) ∨ ∃ s, d = some (.key s) ∧ e = .atom (.str s) ∧ m.entries.lookup s = some c) := by
  cases h with
  | cls _ b => exact ⟨_, rfl, .inl rfl⟩
  | key s _ h => exact ⟨_, rfl, .inr ⟨s, rfl, rfl, h⟩⟩
  | registered _ h => exact ⟨.atom (.cls c), by simp [defaultModule, h], .inl rfl⟩

/-- Resolving the default. -/
theorem resolve_default (w : World) (m : Modules) (name : String) (fuel : Nat) (d : Option Default) (hs : Unshadowed w d) (e : V) (c : Nat)
    (he : e = .atom (.cls c) ∨ ∃ s, d = some (.key s) ∧ e = .atom (.str s) ∧ m.entries.lookup s = some c) (d' : Option Default) (b : Bool)
    (kw : Kw) (r : Built) (h : resolve w (some m) name fuel d' b e kw = some r) : r = call name (.cls c) kw := by
  match fuel with
  | 0 => simp [resolve] at h
  | fuel + 1 =>
    rw [resolve.eq_def] at h
    dsimp only at h
    split at h
    · simp at h
    · split at h
      · simp at h
      · rcases he with rfl | ⟨s, rfl, rfl, hl⟩
        · exact (Option.some.inj h).symm
        · simp only [Unshadowed] at hs
          simp only [hs, hl] at h
          match fuel with
          | 0 => simp [resolve] at h
          | fuel + 1 =>
            rw [resolve.eq_def] at h
            dsimp only at h
            split at h
            · simp at h
            · first
              | exact (Option.some.inj h).symm
              | (split at h
                 · simp at h
                 · exact (Option.some.inj h).symm)

/-! ### The result is what the specification stands for -/

theorem means_default (w : World) (m : Modules) (d : Option Default) (hs : Unshadowed w d) (hd : defaultOk (some m) d = true) (ds : List Kw)
    (c : Atom) (first : Option V) (h : Means w m d false (defaultVal d) ds c first) :
    ds = [] ∧ first = none ∧ ∃ i, c = .cls i ∧ DefaultIs m d i := by
  match d with
  | none =>
    cases h with
    | nothing _ c h => exact ⟨rfl, rfl, c, rfl, h⟩
    | value _ _ _ h => cases h
  | some (.cls i b) =>
    cases h with
    | callable => exact ⟨rfl, rfl, i, rfl, .cls i b⟩
    | value _ _ _ h => cases h
  | some (.key s) =>
    simp only [defaultOk, Option.isSome_iff_exists] at hd
    obtain ⟨i, hi⟩ := hd
    simp only [Unshadowed] at hs
    cases h with
    | file _ _ v _ _ _ h => rw [hs] at h; cases h
    | keyword _ _ c _ h => exact ⟨rfl, rfl, c, rfl, .key s c h⟩
    | path _ _ _ _ h => rw [hi] at h; cases h
    | value _ _ _ h => cases h

theorem resolve_sound (w : World) (hw : w.Ok) (m : Modules) (name : String) (d : Option Default) (hs : Unshadowed w d) (fuel : Nat) :
    ∀ (outer : Bool) (v : V) (kw : Kw) (r : Built), Uniq v → UniqE kw → has "type" kw = false →
      resolve w (some m) name fuel d (!outer) v kw = some r →
      ∃ ds c first, Means w m d outer v ds c first ∧ r.callee = c ∧ Good name kw ds first r := by
  induction fuel with
  | zero => intro outer v kw r _ _ _ h; simp [resolve] at h
  | succ fuel ih =>
    intro outer v kw r hv hkw ht h
    rw [resolve.eq_def] at h
    dsimp only at h
    split at h
    · simp at h
    split at h
    · simp at h
    rename_i hd
    have hd : defaultOk (some m) d = true := by simpa using hd
    have plain : ∀ v : V, Uniq v → Plain v = true →
        (match defaultModule m d with
          | some e => if has "_first_arg" kw then none else resolve w (some m) name fuel none false e (kw.put "_first_arg" v)
          | none => match v with
            | .atom (.keras i) => some (call name (.keras i) kw)
            | _ => none) = some r →
        ∃ ds c first, Means w m d outer v ds c first ∧ r.callee = c ∧ Good name kw ds first r := by
      intro v hu hp h
      split at h
      · rename_i e he
        split at h
        · simp at h
        · rename_i hfa
          obtain ⟨c, hc, he⟩ := default_is m d e he hd
          have := resolve_default w m name fuel d hs e c he _ _ _ r h
          subst this
          exact ⟨[], .cls c, some v, .value outer v c hp hc, rfl, good_put name _ kw hkw v hu (by simpa using hfa)⟩
      · rename_i he
        split at h
        · cases h
          exact ⟨[], _, none, .model outer _ (no_default m d he), rfl, good_call name _ kw hkw⟩
        · simp at h
    split at h
    · rename_i spec
      split at h
      · simp at h
      · rename_i m' hm
        have hum : UniqE m' := uniq_merge kw spec m' hkw hv hm
        have hft : m'.find "type" = spec.find "type" := by
          rw [merge_find kw spec m' hv hm]
          simp only [has, Option.isSome_eq_false_iff, Option.isNone_iff_eq_none] at ht
          rw [ht]; rfl
        have hdt : has "type" (del "type" m') = false := by simp [has, find_del_self m' hum]
        cases hf : spec.find "type" with
        | some t =>
          rw [hft, hf] at h
          obtain ⟨ds, c, first, h1, h2, h3⟩ := ih false t _ r (uniq_find spec hv _ t hf) (uniq_del m' _ hum) hdt h
          exact ⟨spec :: ds, c, first, .typed outer spec t ds c first hf h1, h2, good_merge name kw spec m' hv hm ds first r h3⟩
        | none =>
          rw [hft, hf] at h
          have hdu : Uniq (defaultVal d) := by
            match d with
            | none | some (.key _) | some (.cls ..) => trivial
          obtain ⟨ds, c, first, h1, h2, h3⟩ := ih false (defaultVal d) _ r hdu (uniq_del m' _ hum) hdt h
          obtain ⟨rfl, rfl, i, rfl, hi⟩ := means_default w m d hs hd ds c first h1
          exact ⟨[spec], .cls i, none, .untyped outer spec i hf hi, h2, good_merge name kw spec m' hv hm [] none r h3⟩
    · rename_i s
      split at h
      · rename_i content hfile
        obtain ⟨ds, c, first, h1, h2, h3⟩ := ih false content kw r (hw s content hfile) hkw ht h
        exact ⟨ds, c, first, .file outer s content ds c first hfile h1, h2, h3⟩
      · rename_i hfile
        split at h
        · rename_i c hl
          obtain rfl := resolve_default w m name fuel none trivial _ c (.inl rfl) _ _ _ r h
          exact ⟨[], .cls c, none, .keyword outer s c hfile hl, rfl, good_call name _ kw hkw⟩
        · rename_i hl
          split at h
          · simp at h
          · split at h
            · simp at h
            · rename_i c hlib
              obtain rfl := resolve_default w m name fuel none trivial _ c (.inl rfl) _ _ _ r h
              exact ⟨[], .cls c, none, .path outer s c hfile hl hlib, rfl, good_call name _ kw hkw⟩
            · rename_i hlib
              split at h
              · simp at h
              · rename_i e he
                split at h
                · simp at h
                · rename_i hfa
                  split at h
                  · simp at h
                  · rename_i hb
                    have : outer = true := by simpa using hb
                    subst this
                    obtain ⟨c, hc, he⟩ := default_is m d e he hd
                    obtain rfl := resolve_default w m name fuel d hs e c he _ _ _ r h
                    exact ⟨[], .cls c, _, .string s c hfile hl hlib hc, rfl, good_put name _ kw hkw _ trivial (by simpa using hfa)⟩
    · cases h
      exact ⟨[], .cls _, none, .callable outer _, rfl, good_call name _ kw hkw⟩
    · cases v with
      | dct spec => simp_all
      | atom a =>
        cases a with
        | none =>
          dsimp only at h
          split at h
          · rename_i e he
            split at h
            · simp at h
            · obtain ⟨c, hc, he⟩ := default_is m d e he hd
              obtain rfl := resolve_default w m name fuel d hs e c he _ _ _ r h
              exact ⟨[], .cls c, none, .nothing outer c hc, rfl, good_call name _ kw hkw⟩
          · simp at h
        | num n => exact plain _ hv rfl h
        | keras i => exact plain _ hv rfl h
        | str s => simp_all
        | cls c => simp_all
      | tup xs => exact plain _ hv rfl h
      | lst xs => exact plain _ hv rfl h
      | arr xs => exact plain _ hv rfl h

/-! ### Dictionaries with a type -/

theorem del_put_type (kw : Kw) (x : V) (h : has "type" kw = false) : del "type" (kw.put "type" x) = kw := by
  match kw with
  | .nil => simp [Ents.put, del]
  | .cons i y es =>
    have hi : i ≠ "type" := by intro e; subst e; simp [has, Ents.find] at h
    have he : has "type" es = false := by simpa [has, Ents.find, hi] using h
    simp only [Ents.put, hi, if_false, del, del_put_type es x he]

theorem del_put (kw : Kw) (k : String) (v : V) (hk : k ≠ "type") : del "type" (kw.put k v) = (del "type" kw).put k v := by
  match kw with
  | .nil => simp [Ents.put, del, hk]
  | .cons i y es =>
    by_cases hi : i = "type"
    · subst hi
      simp [Ents.put, Ne.symm hk, del]
    · by_cases hik : i = k
      · subst hik; simp [Ents.put, del, hi]
      · simp [Ents.put, del, hi, hik, del_put es k v hk]

theorem merge_del (a kw : Kw) (x : V) (ha : has "type" a = false) (hx : kw.find "type" = some x) :
    match merge kw a with
    | none => merge (del "type" kw) a = none
    | some m => merge (del "type" kw) a = some (del "type" m) ∧ m.find "type" = some x := by
  match a with
  | .nil => exact ⟨rfl, hx⟩
  | .cons k v a =>
    have hk : k ≠ "type" := by intro e; subst e; simp [has, Ents.find] at ha
    have ha' : has "type" a = false := by simpa [has, Ents.find, hk] using ha
    simp only [merge, find_del kw "type" k (Ne.symm hk)]
    cases kw.find k with
    | none =>
      have := merge_del a (kw.put k v) x ha' (by rw [find_put_other _ _ _ _ hk]; exact hx)
      rwa [del_put kw k v hk] at this
    | some old =>
      dsimp only
      cases mergeVal old v with
      | none => rfl
      | some new =>
        have := merge_del a (kw.put k new) x ha' (by rw [find_put_other _ _ _ _ hk]; exact hx)
        rwa [del_put kw k new hk] at this

/-- A dictionary with a type: its other settings are merged, then the type is resolved. -/
theorem resolve_typed (w : World) (m : Modules) (name : String) (fuel : Nat) (d : Option Default) (b : Bool) (x : V) (a kw : Kw)
    (ht : has "type" kw = false) (ha : has "type" a = false) (hr : (reserved.any (has · kw)) = false) (hd : defaultOk (some m) d = true) :
    resolve w (some m) name (fuel + 1) d b (.dct (.cons "type" x a)) kw =
      (merge kw a).bind fun kw' => resolve w (some m) name fuel d true x kw' := by
  rw [resolve.eq_def]
  dsimp only
  rw [hr, hd]
  have hn : kw.find "type" = none := by simpa [has] using ht
  simp only [merge, hn, Bool.false_eq_true, if_false, reduceCtorEq]
  have h := merge_del a (kw.put "type" x) x ha (find_put_same _ _ _)
  rw [del_put_type kw x ht] at h
  cases hm : merge (kw.put "type" x) a with
  | none => rw [hm] at h; simp only at h; simp [h]
  | some m' => rw [hm] at h; simp only at h; simp [h.1, h.2]

/-! ### Whatever stands for something is accepted -/

theorem free_reserved {kw : Kw} (h : Free kw) : (reserved.any (has · kw)) = false := by
  rw [List.any_eq_false]
  intro k hk
  simp [h k (List.mem_cons_of_mem _ hk)]

theorem has_put (kw : Kw) (x : V) (k : String) (h : k ≠ "_first_arg") : has k (kw.put "_first_arg" x) = has k kw := by
  simp only [has, find_put_other _ _ _ _ (Ne.symm h)]

theorem any_put {kw : Kw} (x : V) (h : Free kw) : (reserved.any (has · (kw.put "_first_arg" x))) = false := by
  rw [List.any_eq_false]
  intro k hk
  have hne : k ≠ "_first_arg" := by
    intro e; subst e; revert hk; decide
  simp [has_put kw x k hne, h k (List.mem_cons_of_mem _ hk)]

theorem resolve_cls (w : World) (m : Modules) (name : String) (fuel : Nat) (d : Option Default) (hd : defaultOk (some m) d = true) (b : Bool)
    (c : Nat) (kw : Kw) (h : (reserved.any (has · kw)) = false) :
    resolve w (some m) name (fuel + 1) d b (.atom (.cls c)) kw = some (call name (.cls c) kw) := by
  rw [resolve.eq_def]
  dsimp only
  rw [h, hd]
  simp

theorem resolve_default_some (w : World) (m : Modules) (name : String) (fuel : Nat) (d : Option Default) (hs : Unshadowed w d) (e : V) (c : Nat)
    (he : e = .atom (.cls c) ∨ ∃ s, d = some (.key s) ∧ e = .atom (.str s) ∧ m.entries.lookup s = some c) (b : Bool)
    (kw : Kw) (h : (reserved.any (has · kw)) = false) :
    resolve w (some m) name (fuel + 2) none b e kw = some (call name (.cls c) kw) := by
  rcases he with rfl | ⟨s, rfl, rfl, hl⟩
  · exact resolve_cls w m name _ none rfl b c kw h
  · simp only [Unshadowed] at hs
    rw [resolve.eq_def]
    dsimp only
    rw [h, hs]
    simp only [Bool.false_eq_true, if_false, defaultOk, hl]
    exact resolve_cls w m name fuel none rfl true c kw h

theorem conflict_dict {x y : V} (hx : x.isDict = true) (h : Conflict x y) {z : V} (hz : z.isDict = true) : Conflict z y := by
  rcases h with h | h
  · exact .inl (by rw [hz, ← hx]; exact h)
  · rw [hx] at h; simp at h

theorem merge_compatible (kw spec m : Kw) (hs : UniqE spec) (hm : merge kw spec = some m) (d : Kw) (h1 : Compatible kw d) (h2 : Compatible spec d) :
    Compatible (del "type" m) d := by
  have hmm : mergeVal (.dct kw) (.dct spec) = some (.dct m) := by simp [mergeVal, hm]
  intro k p x y hk hx hy hc
  rw [at_congr k (find_del m "type" k (Ne.symm hk))] at hx
  cases hxd : x.isDict with
  | false =>
    rcases origin (k :: p) (.dct kw) (.dct spec) (.dct m) hs hmm x hx hxd with h | h
    · exact h1 k p x y hk h hy hc
    · exact h2 k p x y hk h hy hc
  | true =>
    rcases origin_dict (k :: p) (.dct kw) (.dct spec) (.dct m) hs hmm x hx hxd with ⟨u, h, hu⟩ | ⟨u, h, hu⟩
    · exact h1 k p u y hk h hy (conflict_dict hxd hc hu)
    · exact h2 k p u y hk h hy (conflict_dict hxd hc hu)

theorem merge_some (kw spec : Kw) (hs : UniqE spec) (ht : has "type" kw = false) (h : Compatible kw spec) : ∃ m, merge kw spec = some m := by
  cases hm : merge kw spec with
  | some m => exact ⟨m, rfl⟩
  | none =>
    obtain ⟨k, p, x, y, h1, h2, h3⟩ := none_conflictE kw spec hs hm
    exfalso
    by_cases hk : k = "type"
    · subst hk
      simp only [has, Option.isSome_eq_false_iff, Option.isNone_iff_eq_none] at ht
      simp [Val.at, ht] at h1
    · exact h k p x y hk h1 h2 h3

theorem merge_free (kw spec m : Kw) (hs : UniqE spec) (hm : merge kw spec = some m) (h1 : Free kw) (h2 : Free spec) : Free (del "type" m) := by
  intro k hk
  have e1 := h1 k hk
  have e2 := h2 k hk
  simp only [has, Option.isSome_eq_false_iff, Option.isNone_iff_eq_none] at e1 e2 ⊢
  refine find_del_none _ _ _ ?_
  rw [merge_find kw spec m hs hm, e1, e2]
  rfl

theorem resolve_complete (w : World) (hw : w.Ok) (m : Modules) (hmro : m.mro = true) (name : String) (d : Option Default) (hs : Unshadowed w d)
    (hd : defaultOk (some m) d = true) (outer : Bool) (v : V) (ds : List Kw) (c : Atom) (first : Option V) (h : Means w m d outer v ds c first) :
    Uniq v → ∀ kw, UniqE kw → has "type" kw = false → (∀ e ∈ kw :: ds, Free e) → (kw :: ds).Pairwise Compatible →
      ∃ n, ∀ fuel, n ≤ fuel → ∀ b, (b = true → outer = false) → (resolve w (some m) name fuel d b v kw).isSome = true := by
  induction h with
  | callable outer c =>
    intro _ kw _ _ hf _
    refine ⟨1, fun fuel hn b _ => ?_⟩
    obtain ⟨k, rfl⟩ := Nat.exists_eq_add_of_le' hn
    rw [resolve_cls w m name k d hd b c kw (free_reserved (hf kw List.mem_cons_self))]
    rfl
  | file outer s v ds c first hfile _ ih =>
    intro _ kw hkw ht hf hp
    obtain ⟨n, hn⟩ := ih (hw s v hfile) kw hkw ht hf hp
    refine ⟨n + 1, fun fuel hfu b _ => ?_⟩
    obtain ⟨k, rfl⟩ : ∃ k, fuel = k + 1 := ⟨fuel - 1, by omega⟩
    rw [resolve.eq_def]
    dsimp only
    rw [free_reserved (hf kw List.mem_cons_self), hd, hfile]
    simpa using hn k (by omega) true (fun _ => rfl)
  | keyword outer s c hfile hl =>
    intro _ kw _ _ hf _
    have hr := free_reserved (hf kw List.mem_cons_self)
    refine ⟨2, fun fuel hn b _ => ?_⟩
    obtain ⟨k, rfl⟩ := Nat.exists_eq_add_of_le' hn
    rw [resolve.eq_def]
    dsimp only
    rw [hr, hd, hfile]
    simp only [hl]
    rw [resolve_cls w m name k d hd true c kw hr]
    rfl
  | path outer s c hfile hl hlib =>
    intro _ kw _ _ hf _
    have hr := free_reserved (hf kw List.mem_cons_self)
    refine ⟨2, fun fuel hn b _ => ?_⟩
    obtain ⟨k, rfl⟩ := Nat.exists_eq_add_of_le' hn
    rw [resolve.eq_def]
    dsimp only
    rw [hr, hd, hfile]
    simp only [hl, hmro, hlib]
    rw [resolve_cls w m name k d hd true c kw hr]
    rfl
  | string s c hfile hl hlib hc =>
    intro _ kw _ _ hf _
    have hk := hf kw List.mem_cons_self
    have hr := free_reserved hk
    obtain ⟨e, he, he'⟩ := default_of m d c hc
    refine ⟨3, fun fuel hn b hb => ?_⟩
    obtain ⟨k, rfl⟩ := Nat.exists_eq_add_of_le' hn
    have hb : b = false := by
      cases b with
      | false => rfl
      | true => simpa using hb rfl
    subst hb
    rw [resolve.eq_def]
    dsimp only
    rw [hr, hd, hfile]
    simp only [hl, hmro, hlib, he]
    rw [hk "_first_arg" List.mem_cons_self, resolve_default_some w m name k d hs e c he' false _ (any_put _ hk)]
    rfl
  | typed outer spec t ds c first hft _ ih =>
    intro hv kw hkw ht hf hp
    have hv : UniqE spec := hv
    have hc := List.pairwise_cons.1 hp
    have hc2 := List.pairwise_cons.1 hc.2
    obtain ⟨m', hm⟩ := merge_some kw spec hv ht (hc.1 spec List.mem_cons_self)
    have hum := uniq_merge kw spec m' hkw hv hm
    have hft' : m'.find "type" = some t := by
      rw [merge_find kw spec m' hv hm]
      simp only [has, Option.isSome_eq_false_iff, Option.isNone_iff_eq_none] at ht
      rw [ht, hft]; rfl
    obtain ⟨n, hn⟩ := ih (uniq_find spec hv _ t hft) (del "type" m') (uniq_del m' _ hum) (by simp [has, find_del_self m' hum])
      (fun e he => by
        rcases List.mem_cons.1 he with rfl | he
        · exact merge_free kw spec m' hv hm (hf kw List.mem_cons_self) (hf spec (by simp))
        · exact hf e (by simp [he]))
      (List.pairwise_cons.2 ⟨fun e he => merge_compatible kw spec m' hv hm e (hc.1 e (List.mem_cons_of_mem _ he)) (hc2.1 e he), hc2.2⟩)
    refine ⟨n + 1, fun fuel hfu b _ => ?_⟩
    obtain ⟨k, rfl⟩ : ∃ k, fuel = k + 1 := ⟨fuel - 1, by omega⟩
    rw [resolve.eq_def]
    dsimp only
    rw [free_reserved (hf kw List.mem_cons_self), hd, hm]
    simp only [hft']
    simpa using hn k (by omega) true (fun _ => rfl)
  | untyped outer spec c hft hc =>
    intro hv kw hkw ht hf hp
    have hv : UniqE spec := hv
    obtain ⟨m', hm⟩ := merge_some kw spec hv ht ((List.pairwise_cons.1 hp).1 spec List.mem_cons_self)
    have hft' : m'.find "type" = none := by
      rw [merge_find kw spec m' hv hm]
      simp only [has, Option.isSome_eq_false_iff, Option.isNone_iff_eq_none] at ht
      rw [ht, hft]; rfl
    have hfr : Free (del "type" m') := merge_free kw spec m' hv hm (hf kw List.mem_cons_self) (hf spec (by simp))
    have hr := free_reserved hfr
    refine ⟨4, fun fuel hfu b _ => ?_⟩
    obtain ⟨k, rfl⟩ := Nat.exists_eq_add_of_le' hfu
    rw [resolve.eq_def]
    dsimp only
    rw [free_reserved (hf kw List.mem_cons_self), hd, hm]
    simp only [hft', Option.getD_none, Bool.false_eq_true, if_false]
    cases hc with
    | cls c b =>
      simp only [defaultVal]
      rw [resolve_cls w m name (k + 2) _ hd true c _ hr]
      rfl
    | key s c hl =>
      simp only [Unshadowed] at hs
      simp only [defaultVal]
      rw [resolve.eq_def]
      dsimp only
      rw [hr, hd, hs]
      simp only [hl]
      rw [resolve_cls w m name (k + 1) _ hd true c _ hr]
      rfl
    | registered c hl =>
      simp only [defaultVal]
      rw [resolve.eq_def]
      dsimp only
      rw [hr, hd]
      simp only [defaultModule, hl, Option.map_some, hfr "_first_arg" List.mem_cons_self]
      rw [resolve_cls w m name (k + 1) none rfl false c _ hr]
      rfl
  | nothing outer c hc =>
    intro _ kw _ _ hf _
    have hk := hf kw List.mem_cons_self
    have hr := free_reserved hk
    obtain ⟨e, he, he'⟩ := default_of m d c hc
    refine ⟨3, fun fuel hn b _ => ?_⟩
    obtain ⟨k, rfl⟩ := Nat.exists_eq_add_of_le' hn
    rw [resolve.eq_def]
    dsimp only
    rw [hr, hd]
    simp only [he]
    rw [hk "_first_arg" List.mem_cons_self, resolve_default_some w m name k d hs e c he' false _ hr]
    rfl
  | value outer v c hpl hc =>
    intro _ kw _ _ hf _
    have hk := hf kw List.mem_cons_self
    have hr := free_reserved hk
    obtain ⟨e, he, he'⟩ := default_of m d c hc
    refine ⟨3, fun fuel hn b _ => ?_⟩
    obtain ⟨k, rfl⟩ := Nat.exists_eq_add_of_le' hn
    have main : ∀ x : V, (if has "_first_arg" kw then none else resolve w (some m) name (k + 2) none false e (kw.put "_first_arg" x)).isSome = true := by
      intro x
      rw [hk "_first_arg" List.mem_cons_self, resolve_default_some w m name k d hs e c he' false _ (any_put x hk)]
      rfl
    rw [resolve.eq_def]
    dsimp only
    rw [hr, hd]
    match v with
    | .dct _ | .atom (.str _) | .atom (.cls _) | .atom .none => cases hpl
    | .atom (.num _) | .atom (.keras _) | .tup _ | .lst _ | .arr _ =>
      simp only [he]
      exact main _
  | model outer i hno =>
    intro _ kw _ _ hf _
    have hr := free_reserved (hf kw List.mem_cons_self)
    refine ⟨1, fun fuel hn b _ => ?_⟩
    obtain ⟨k, rfl⟩ := Nat.exists_eq_add_of_le' hn
    have hdm : defaultModule m d = none := by
      cases he : defaultModule m d with
      | none => rfl
      | some e =>
        obtain ⟨c, hc, _⟩ := default_is m d e he hd
        exact (hno c hc).elim
    rw [resolve.eq_def]
    dsimp only
    rw [hr, hd]
    simp only [hdm]
    rfl

/-- Every result is that of line 475. -/
theorem resolve_call (w : World) (m : Modules) (name : String) (fuel : Nat) : ∀ (d : Option Default) (b : Bool) (v : V) (kw : Kw) (r : Built),
    resolve w (some m) name fuel d b v kw = some r → ∃ c kw', r = call name c kw' := by
  induction fuel with
  | zero => intro d b v kw r h; cases h
  | succ fuel ih =>
    intro d b v kw r h
    rw [resolve.eq_def] at h
    dsimp only at h
    repeat' (split at h)
    all_goals first
      | cases h; done
      | exact ih _ _ _ _ _ h
      | (cases h; exact ⟨_, _, rfl⟩)

end Verif.Resolve
