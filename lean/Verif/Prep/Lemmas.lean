import Verif.Prep.Spec

/-! # Lemmas about the preprocessing layers -/

namespace Verif.Prep

variable {σ α obs out : Type}

theorem snoc_ind {β : Type} {P : List β → Prop} (nil : P []) (snoc : ∀ h e, P h → P (h ++ [e])) (h : List β) : P h := by
  have key : ∀ l : List β, P l.reverse := fun l => by
    induction l with
    | nil => exact nil
    | cons e l ih => rw [List.reverse_cons]; exact snoc _ _ ih
  have := key h.reverse
  rwa [List.reverse_reverse] at this

theorem own_snoc (p : Nat) (h : List (Event obs)) (e : Event obs) : own p (h ++ [e]) = ownStep p (own p h) e := by
  simp [own, List.foldl_append]

theorem stream_snoc (h : List (Event obs)) (e : Event obs) : stream (h ++ [e]) = streamStep (stream h) e := by
  simp [stream, List.foldl_append]

theorem run_snoc (l : Layer σ obs out) (h : List (Event obs)) (e : Event obs) : l.run (h ++ [e]) = (l.step (l.run h) e).1 := by
  simp [Layer.run, List.foldl_append]

/-- A layer that follows the observations since its last reset. -/
structure Follows (l : Layer σ obs out) (spec : List obs → out) (ok : obs → Prop) (R : σ → List obs → Prop) : Prop where
  start : R l.init []
  many : ∀ st x, 1 < x.length → l.apply st x = none
  empty : ∀ st os, R st os → ∃ st', l.apply st [] = some (st', []) ∧ R st' os
  one : ∀ st os x, R st os → ok x → ∃ st', l.apply st [x] = some (st', [spec (os ++ [x])]) ∧ R st' (os ++ [x])
  reset : ∀ st os, R st os → R (l.reset st) []

/-- All observations of an event have the right form. -/
def okEvent (ok : obs → Prop) : Event obs → Prop
  | .act batch => ∀ b ∈ batch, ok b.2
  | .independent batch => ∀ b ∈ batch, ok b
  | _ => True

theorem follows_step {l : Layer σ obs out} {spec : List obs → out} {ok : obs → Prop} {R : σ → List obs → Prop}
    (hf : Follows l spec ok R) {st : σ} {os : List obs} (hR : R st os) (e : Event obs) (he : okEvent ok e) :
    R (l.step st e).1 (streamStep os e) ∧ (∀ p x, e = .act [(p, x)] → (l.step st e).2 = some [spec (os ++ [x])]) ∧
    (∀ batch, e = .act batch → 1 < batch.length → (l.step st e).2 = none) ∧
    (∀ batch, e = .independent batch → 1 < batch.length → (l.step st e).2 = none) := by
  cases e with
  | act batch =>
    match batch, he with
    | [], _ =>
      obtain ⟨st', h1, h2⟩ := hf.empty st os hR
      simp only [Layer.step, List.map_nil, h1, streamStep]
      simp [h2]
    | [(p, x)], he =>
      obtain ⟨st', h1, h2⟩ := hf.one st os x hR (he (p, x) (by simp))
      simp only [Layer.step, List.map_cons, List.map_nil, h1, streamStep]
      refine ⟨by simpa using h2, ?_, ?_, ?_⟩
      · intro q y hy; cases hy; rfl
      · intro b hb hl; cases hb; simp at hl
      · intro b hb; cases hb
    | a :: b :: bs, _ =>
      have h1 := hf.many st ((a :: b :: bs).map (·.2)) (by simp)
      simp only [Layer.step, h1, streamStep]
      refine ⟨by simpa using hR, ?_, ?_, ?_⟩
      · intro q y hy; cases hy
      · intro _ _ _; trivial
      · intro b hb; cases hb
  | independent batch =>
    match batch, he with
    | [], _ =>
      obtain ⟨st', h1, h2⟩ := hf.empty st os hR
      simp only [Layer.step, h1, streamStep]
      simp [h2]
    | [x], he =>
      obtain ⟨st', h1, h2⟩ := hf.one st os x hR (he x (by simp))
      simp only [Layer.step, h1, streamStep]
      refine ⟨by simpa using h2, ?_, ?_, ?_⟩
      · intro q y hy; cases hy
      · intro b hb; cases hb
      · intro b hb hl; cases hb; simp at hl
    | a :: b :: bs, _ =>
      have h1 := hf.many st (a :: b :: bs) (by simp)
      simp only [Layer.step, h1, streamStep]
      refine ⟨by simpa using hR, ?_, ?_, ?_⟩
      · intro q y hy; cases hy
      · intro b hb; cases hb
      · intro _ _ _; trivial
  | terminal p =>
    refine ⟨hf.reset st os hR, ?_, ?_, ?_⟩ <;> (intros; simp_all)
  | reset =>
    refine ⟨hR, ?_, ?_, ?_⟩ <;> (intros; simp_all)

theorem follows_run {l : Layer σ obs out} {spec : List obs → out} {ok : obs → Prop} {R : σ → List obs → Prop}
    (hf : Follows l spec ok R) (h : List (Event obs)) (hok : ∀ e ∈ h, okEvent ok e) : R (l.run h) (stream h) := by
  induction h using snoc_ind with
  | nil => exact hf.start
  | snoc h e ih =>
    rw [run_snoc, stream_snoc]
    exact (follows_step hf (ih fun e he => hok e (by simp [he])) e (hok e (by simp))).1

/-! ## Calm histories -/

theorem calm_init {h : List (Event obs)} {e : Event obs} (hc : Calm (h ++ [e])) : Calm h ∧ calm h e :=
  ⟨fun h1 e1 h2 he => hc h1 e1 (h2 ++ [e]) (by rw [he]; simp), hc h e [] rfl⟩

/-- In a calm history at most one interaction is in an episode, and the layer has seen exactly its observations. -/
theorem calm_stream (h : List (Event obs)) (hc : Calm h) :
    (∀ p, own p h = []) ∧ stream h = [] ∨ ∃ p, own p h ≠ [] ∧ stream h = own p h ∧ ∀ q, q ≠ p → own q h = [] := by
  induction h using snoc_ind with
  | nil => left; exact ⟨fun _ => rfl, rfl⟩
  | snoc h e ih =>
    obtain ⟨hh, he⟩ := calm_init hc
    have ih := ih hh
    simp only [own_snoc, stream_snoc]
    cases e with
    | act batch =>
      match batch, he with
      | [], _ => simpa [ownStep, streamStep] using ih
      | [(p, x)], he =>
        have hq : ∀ q, q ≠ p → own q h = [] := fun q hq => he (p, x) (by simp) q hq
        have hs : stream h = own p h := by
          rcases ih with ⟨h1, h2⟩ | ⟨r, h1, h2, h3⟩
          · rw [h2, h1]
          · by_cases hr : r = p
            · rw [← hr]; exact h2
            · exact absurd (hq r hr) h1
        right
        refine ⟨p, by simp [ownStep], by simp [ownStep, streamStep, hs], fun q hne => ?_⟩
        have : p ≠ q := fun h => hne h.symm
        simp [ownStep, hq q hne, this]
      | a :: b :: bs, _ =>
        have : ¬ (a :: b :: bs).length ≤ 1 := by simp
        simpa only [ownStep, streamStep, if_neg this] using ih
    | independent batch =>
      have : batch = [] := he
      subst this
      simpa [ownStep, streamStep] using ih
    | terminal p =>
      have hp : own p h ≠ [] := he
      left
      rcases ih with ⟨h1, h2⟩ | ⟨r, h1, h2, h3⟩
      · exact absurd (h1 p) hp
      · refine ⟨fun q => ?_, rfl⟩
        simp only [ownStep]
        split
        · rfl
        · rename_i hpq
          by_cases hr : q = r
          · subst hr
            exact absurd (h3 p hpq) hp
          · exact h3 q hr
    | reset =>
      have hq : ∀ q, own q h = [] := he
      left
      refine ⟨fun _ => rfl, ?_⟩
      rcases ih with ⟨h1, h2⟩ | ⟨r, h1, h2, h3⟩
      · exact h2
      · exact absurd (hq r) h1

/-- The observation that a calm call adds belongs to the same episode as everything the layer has seen. -/
theorem calm_act {h : List (Event obs)} {p : Nat} {x : obs} (hc : Calm (h ++ [.act [(p, x)]])) :
    stream h ++ [x] = own p (h ++ [.act [(p, x)]]) := by
  obtain ⟨hh, he⟩ := calm_init hc
  have hq : ∀ q, q ≠ p → own q h = [] := fun q hq => he (p, x) (by simp) q hq
  have hs : stream h = own p h := by
    rcases calm_stream h hh with ⟨h1, h2⟩ | ⟨r, h1, h2, h3⟩
    · rw [h2, h1]
    · by_cases hr : r = p
      · rw [← hr]; exact h2
      · exact absurd (hq r hr) h1
  rw [own_snoc, hs]
  simp [ownStep]

/-! ## The two layers follow their specification -/

theorem drop_replicate_flatten (n w : Nat) (x : List α) (hx : x.length = w) :
    ((List.replicate (n + 1) x).flatten.drop w).take (w * n) = (List.replicate n x).flatten := by
  rw [List.replicate_succ, List.flatten_cons, List.drop_append_of_le_length (by omega), List.drop_eq_nil_of_le (by omega), List.nil_append]
  apply List.take_of_length_le
  simp [hx, Nat.mul_comm]

theorem flatten_length {f : Nat → List α} {w n : Nat} (h : ∀ k, k < n → (f k).length = w) :
    ((List.range n).map f).flatten.length = w * n := by
  induction n with
  | zero => simp
  | succ n ih =>
    rw [List.range_succ, List.map_append, List.flatten_append, List.length_append, ih fun k hk => h k (by omega)]
    simp [h n (by omega), Nat.mul_succ]

theorem getD_length {os : List (List α)} {w : Nat} (h : ∀ x ∈ os, x.length = w) {i : Nat} (hi : i < os.length) :
    (os.getD i []).length = w := by
  rw [List.getD_eq_getElem?_getD, List.getElem?_eq_getElem hi]
  exact h _ (List.getElem_mem hi)

/-- The last `len - 1` observations of the stack. -/
def tailStack (len : Nat) (os : List (List α)) : List α :=
  ((List.range (len - 1)).map fun k => os.getD (os.length + k + 1 - len) []).flatten

theorem lastStack_tail (len w : Nat) (hl : 0 < len) (os : List (List α)) (hne : os ≠ []) (hw : ∀ x ∈ os, x.length = w) :
    ((lastStack len os).drop w).take (w * (len - 1)) = tailStack len os := by
  obtain ⟨n, rfl⟩ : ∃ n, len = n + 1 := ⟨len - 1, by omega⟩
  have hpos : 0 < os.length := List.length_pos_iff.mpr hne
  unfold lastStack tailStack
  rw [List.range_succ_eq_map, List.map_cons, List.flatten_cons, List.map_map]
  have h0 : (os.getD (os.length + 0 - (n + 1)) []).length = w := getD_length hw (by omega)
  rw [List.drop_append_of_le_length (by omega), List.drop_eq_nil_of_le (by omega), List.nil_append]
  rw [Nat.add_sub_cancel]
  have e : ((List.range n).map ((fun k => os.getD (os.length + k - (n + 1)) []) ∘ Nat.succ)) =
      (List.range n).map fun k => os.getD (os.length + k + 1 - (n + 1)) [] := by
    apply List.map_congr_left; intro k _; rfl
  rw [e]
  apply List.take_of_length_le
  rw [flatten_length (w := w)]
  · omega
  · intro k hk
    exact getD_length hw (by omega)

theorem lastStack_snoc (len w : Nat) (hl : 0 < len) (os : List (List α)) (hne : os ≠ []) (hw : ∀ x ∈ os, x.length = w) (x : List α) :
    tailStack len os ++ x = lastStack len (os ++ [x]) := by
  obtain ⟨n, rfl⟩ : ∃ n, len = n + 1 := ⟨len - 1, by omega⟩
  have hpos : 0 < os.length := List.length_pos_iff.mpr hne
  unfold lastStack tailStack
  rw [List.range_succ, List.map_append, List.flatten_append, Nat.add_sub_cancel]
  congr 1
  · congr 1
    apply List.map_congr_left
    intro k hk
    have hk : k < n := List.mem_range.mp hk
    rw [List.length_append, List.length_singleton, List.getD_eq_getElem?_getD, List.getD_eq_getElem?_getD,
      List.getElem?_append_left (by omega)]
    have : os.length + k + 1 - (n + 1) = os.length + 1 + k - (n + 1) := by omega
    rw [this]
  · have : os.length + 1 + n - (n + 1) = os.length := by omega
    simp [List.getD_eq_getElem?_getD, this]

theorem lastStack_first (len : Nat) (x : List α) : lastStack len [x] = (List.replicate len x).flatten := by
  unfold lastStack
  congr 1
  apply List.ext_getElem
  · simp
  · intro k h1 h2
    have : k < len := by simpa using h1
    simp only [List.getElem_map, List.getElem_range, List.getElem_replicate]
    have : [x].length + k - len = 0 := by simp; omega
    rw [this]; rfl

theorem sequence_follows (len w : Nat) (fill : α) (hl : 0 < len) :
    Follows (sequence len w fill) (lastStack len) (fun x => x.length = w) fun st os =>
      (∀ x ∈ os, x.length = w) ∧ st.hasPrevious = !os.isEmpty ∧ (os ≠ [] → st.previous = tailStack len os) where
  start := by simp [sequence]
  many st x hx := by simp only [sequence, if_pos hx]
  empty st os h := ⟨st, by simp [sequence], h⟩
  one st os x h hx := by
    obtain ⟨hw, hp, hprev⟩ := h
    have hout : (seqOne len w st x).2 = lastStack len (os ++ [x]) := by
      cases os with
      | nil =>
        simp only [seqOne, hp, List.isEmpty_nil, Bool.not_true, Bool.false_eq_true, if_false, List.nil_append]
        exact (lastStack_first len x).symm
      | cons o os =>
        simp only [seqOne, hp, List.isEmpty_cons, Bool.not_false, if_true]
        rw [hprev (by simp)]
        exact lastStack_snoc len w hl _ (by simp) hw x
    have hst : (seqOne len w st x).1 = ⟨true, ((seqOne len w st x).2.drop w).take (w * (len - 1))⟩ := rfl
    have hw' : ∀ y ∈ os ++ [x], y.length = w := fun y hy => by
      rcases List.mem_append.mp hy with h | h
      · exact hw y h
      · simp at h; subst h; exact hx
    refine ⟨(seqOne len w st x).1, ?_, hw', ?_, fun _ => ?_⟩
    · simp [sequence, hout]
    · simp [hst]
    · rw [hst, hout]
      exact lastStack_tail len w hl _ (by simp) hw'
  reset st os _ := by simp [sequence]

theorem deltafier_follows (concatenate : Bool) (w : Nat) :
    Follows (deltafier concatenate w) (lastDelta concatenate) (fun _ => True) fun st os =>
      st.hasPrevious = !os.isEmpty ∧ (os ≠ [] → st.previous = os.getLastD []) where
  start := by simp [deltafier]
  many st x hx := by simp only [deltafier, if_pos hx]
  empty st os h := by
    refine ⟨st, ?_, h⟩
    cases concatenate <;> simp [deltafier]
  one st os x h _ := by
    obtain ⟨hp, hprev⟩ := h
    refine ⟨⟨true, x⟩, ?_, by simp, by simp⟩
    have h1 : ¬ 1 < [x].length := by simp
    cases os with
    | nil =>
      have hp : st.hasPrevious = false := by simpa using hp
      cases concatenate <;> simp [deltafier, lastDelta, hp]
    | cons o os =>
      have hp : st.hasPrevious = true := by simpa using hp
      have hprev := hprev (by simp)
      have e : ((o :: os) ++ [x]).dropLast.getLastD [] = (o :: os).getLastD [] := by rw [List.dropLast_concat]
      have e2 : ((o :: os) ++ [x]).getLastD [] = x := by rw [List.getLastD_eq_getLast?, List.getLast?_append]; rfl
      have e3 : ¬ ((o :: os) ++ [x]).length ≤ 1 := by simp
      simp only [lastDelta, e, e2, if_neg e3]
      cases concatenate <;> simp [deltafier, hp, hprev]
  reset st os _ := by simp [deltafier]

end Verif.Prep
