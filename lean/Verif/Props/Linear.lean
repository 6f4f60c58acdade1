import Verif.Norm.LinearLemmas

/-!
# C119: linear normalization
-/

namespace Verif.Props.Linear

open Verif.Norm

variable {K : Type} [Field K] [LinearOrder K]

/-- A missing bound is an error. -/
theorem required (eps : K) (g1 g2 : Option (Bnd K)) (input : Range K)
    (h : (g1 = none ∧ input.min = none) ∨ (g2 = none ∧ input.max = none)) : linear eps g1 g2 input = .error .required := by
  unfold linear
  rcases h with ⟨e1, e2⟩ | ⟨e1, e2⟩
  · rw [e1, e2]; rfl
  · rw [e1, e2]
    cases h1 : orInput g1 input.min with
    | ok m => rfl
    | error e =>
      have : e = .required := by
        unfold orInput at h1
        split at h1
        · cases h1
        · split at h1
          · cases h1
          · cases h1; rfl
      rw [this]
      rfl

/-- Bounds which are not in order are not reported as an invalid value: the exception is raised with wrong arguments. -/
theorem order_violation (eps : K) (g1 g2 : Option (Bnd K)) (input : Range K) (mn mx : Bnd K) (i : Nat) (b b' : Ext K)
    (h1 : Source g1 input.min mn) (h2 : Source g2 input.max mx) (hi : i < input.size) (hb : BoundAt mn i b) (hb' : BoundAt mx i b')
    (hs : ¬ Strict b b') : linear eps g1 g2 input = .error .type := by
  have o1 : orInput g1 input.min = .ok mn := by
    generalize input.min = im at h1
    cases h1 <;> rfl
  have o2 : orInput g2 input.max = .ok mx := by
    generalize input.max = im at h2
    cases h2 <;> rfl
  unfold linear
  rw [o1, o2]
  show (if Bnd.all input.size (fun x y => x.lt y) mn mx then _ else _) = _
  rw [if_neg]
  intro h
  have := (lt_iff _ _).1 (all_iff.1 h i hi)
  rw [entry_of_boundAt hb, entry_of_boundAt hb'] at this
  exact hs this

/-- An entry whose bounds are finite is mapped linearly, its lower bound to -2 and its upper bound to 2; others are kept. -/
theorem mapped (l : Linear K) (row : List K) :
    (applyLinear l row).length = row.length ∧
    (∀ i a b t, BoundAt l.min i (.fin a) → BoundAt l.max i (.fin b) → a < b → row[i]? = some (a + t * (b - a)) →
      (applyLinear l row)[i]? = some (-2 + 4 * t)) ∧
    (∀ i p q x, BoundAt l.min i p → BoundAt l.max i q → (p = .bot ∨ p = .top ∨ q = .bot ∨ q = .top) → row[i]? = some x →
      (applyLinear l row)[i]? = some x) := by
  unfold applyLinear
  refine ⟨List.length_mapIdx, ?_, ?_⟩
  · intro i a b t h1 h2 hab hx
    rw [List.getElem?_mapIdx, hx, entry_of_boundAt h1, entry_of_boundAt h2]
    show some (4 * (a + t * (b - a) - a) / (b - a) - 2) = _
    have hne : b - a ≠ 0 := sub_ne_zero.2 (ne_of_gt hab)
    congr 1
    rw [show 4 * (a + t * (b - a) - a) = 4 * t * (b - a) by ring, mul_div_assoc, div_self hne]
    ring
  · intro i p q x h1 h2 hp hx
    rw [List.getElem?_mapIdx, hx, entry_of_boundAt h1, entry_of_boundAt h2]
    show some (scale p q x) = _
    rcases hp with e | e | e | e <;> subst e
    · rfl
    · rfl
    · cases p <;> rfl
    · cases p <;> rfl

/-- The bounds used are the given ones, or those of the input. -/
theorem bounds_used (eps : K) (g1 g2 : Option (Bnd K)) (input : Range K) (l : Linear K) (h : linear eps g1 g2 input = .ok l) :
    (∀ m, g1 = some m → l.min = m) ∧ (g1 = none → input.min = some l.min) ∧
    (∀ m, g2 = some m → l.max = m) ∧ (g2 = none → input.max = some l.max) := by
  obtain ⟨h1, h2, _, _⟩ := linear_ok h
  refine ⟨?_, ?_, ?_, ?_⟩
  · rintro m rfl; cases h1; rfl
  · rintro rfl
    revert h1
    cases input.min with
    | none => intro h1; cases h1
    | some m => intro h1; cases h1; rfl
  · rintro m rfl; cases h2; rfl
  · rintro rfl
    revert h2
    cases input.max with
    | none => intro h2; cases h2
    | some m => intro h2; cases h2; rfl

variable [IsStrictOrderedRing K]

/-- Values within the bounds used are mapped into the announced range. -/
theorem contained_used (eps : K) (g1 g2 : Option (Bnd K)) (input r : Range K) (l : Linear K) (row : List K)
    (h : linear eps g1 g2 input = .ok l) (ha : announced eps l = .ok r) (c1 : Complete input.size l.min) (c2 : Complete input.size l.max)
    (hc : Contains ⟨input.size, some l.min, some l.max⟩ row) : Contains r (applyLinear l row) := by
  obtain ⟨_, _, hs, hsz⟩ := linear_ok h
  rw [announced_ok ha, hsz]
  rw [← hsz] at c1 c2
  refine ⟨by rw [(mapped l row).1]; exact hc.1, ?_⟩
  intro i y hy
  unfold applyLinear at hy
  rw [List.getElem?_mapIdx] at hy
  cases hx : row[i]? with
  | none => rw [hx] at hy; cases hy
  | some x =>
    rw [hx] at hy
    have hi : i < input.size := by
      have := (List.getElem?_eq_some_iff.1 hx).1
      rw [hc.1] at this
      exact this
    have hi' : i < l.input.size := hsz ▸ hi
    obtain ⟨hlo, hhi⟩ := hc.2 i x hx
    obtain ⟨b, hb, hab⟩ := hlo _ rfl
    obtain ⟨b', hb', hbb⟩ := hhi _ rfl
    have e1 := entry_of_boundAt hb
    have e2 := entry_of_boundAt hb'
    have hst := hs i hi
    have k1 := keepInf_entry (v := -2) c1 c2 c1 hi'
    have k2 := keepInf_entry (v := 2) c1 c2 c2 hi'
    have p1 := boundAt_entry (keepInf_complete (v := -2) c1 c2 c1) hi'
    have p2 := boundAt_entry (keepInf_complete (v := 2) c1 c2 c2) hi'
    rw [k1] at p1
    rw [k2] at p2
    rw [e1, e2] at p1 p2 hst
    have hy' : y = scale b b' x := by
      rw [e1, e2] at hy
      exact (Option.some.inj hy).symm
    subst hy'
    constructor
    · intro m hm
      cases hm
      refine ⟨_, p1, ?_⟩
      cases b with
      | bot => exact True.intro
      | top => exact hab
      | fin a =>
        cases b' with
        | bot => exact hbb.elim
        | top => exact hab
        | fin b' =>
          have hst : a < b' := hst
          have hab : a ≤ x := hab
          show -2 ≤ 4 * (x - a) / (b' - a) - 2
          have : 0 ≤ 4 * (x - a) / (b' - a) := div_nonneg (by linarith) (by linarith)
          linarith
    · intro m hm
      cases hm
      refine ⟨_, p2, ?_⟩
      cases b with
      | bot => cases b' with
        | bot => exact hbb
        | top => exact True.intro
        | fin b' => exact hbb
      | top => cases b' with
        | bot => exact hbb
        | top => exact True.intro
        | fin b' => exact hbb
      | fin a =>
        cases b' with
        | bot => exact hbb.elim
        | top => exact True.intro
        | fin b' =>
          have hst : a < b' := hst
          have hbb : x ≤ b' := hbb
          show 4 * (x - a) / (b' - a) - 2 ≤ 2
          have : 4 * (x - a) / (b' - a) ≤ 4 := by
            rw [div_le_iff₀ (by linarith)]
            linarith
          linarith

/-- States of the specified range are mapped into the announced range if the bounds are those of the specification. What is missing:
given bounds, see `narrow_violation`; for these there is `contained_used`. -/
theorem contained_partial (eps : K) (input r : Range K) (l : Linear K) (row : List K)
    (h : linear eps none none input = .ok l) (ha : announced eps l = .ok r)
    (c1 : ∀ m, input.min = some m → Complete input.size m) (c2 : ∀ m, input.max = some m → Complete input.size m)
    (hc : Contains input row) : Contains r (applyLinear l row) := by
  obtain ⟨_, h1, _, h2⟩ := bounds_used eps none none input l h
  have h1 := h1 rfl
  have h2 := h2 rfl
  refine contained_used eps none none input r l row h ha (c1 _ h1) (c2 _ h2) ?_
  rw [← h1, ← h2]
  exact hc

/-- Bounds which are far enough apart are accepted, if finite upper bounds are not below -2, and the announced range is from -2 to 2 where
both bounds are finite and as before elsewhere. What is missing: states with a negative upper bound, see `negative_violation`. -/
theorem accepted_partial (eps : K) (g1 g2 : Option (Bnd K)) (input : Range K) (mn mx : Bnd K) (he : 0 < eps) (he' : eps ≤ 4)
    (h1 : Source g1 input.min mn) (h2 : Source g2 input.max mx) (c1 : Complete input.size mn) (c2 : Complete input.size mx)
    (hap : ∀ i b b', i < input.size → BoundAt mn i b → BoundAt mx i b' → Apart eps b b')
    (hneg : ∀ i a b, i < input.size → BoundAt mn i (.fin a) → BoundAt mx i (.fin b) → -2 + eps ≤ b) :
    ∃ l r, linear eps g1 g2 input = .ok l ∧ l.min = mn ∧ l.max = mx ∧ announced eps l = .ok r ∧ r.size = input.size ∧
      ∃ m m', r.min = some m ∧ r.max = some m' ∧ ∀ i b b', i < input.size → BoundAt mn i b → BoundAt mx i b' →
        (b.isInf = false ∧ b'.isInf = false → BoundAt m i (.fin (-2)) ∧ BoundAt m' i (.fin 2)) ∧
        (b.isInf = true ∨ b'.isInf = true → BoundAt m i b ∧ BoundAt m' i b') := by
  have hap' : ∀ i, i < input.size → Apart eps (mn.entry i) (mx.entry i) :=
    fun i hi => hap i _ _ hi (boundAt_entry c1 hi) (boundAt_entry c2 hi)
  have hl := linear_accepts he h1 h2 hap'
  refine ⟨_, ⟨input.size, some (keepInf ⟨mn, mx, ⟨input.size, some mn, some mx⟩⟩ mn (-2)),
    some (keepInf ⟨mn, mx, ⟨input.size, some mn, some mx⟩⟩ mx 2)⟩, hl, rfl, rfl, ?_, rfl, _, _, rfl, rfl, ?_⟩
  · unfold announced
    have k1 : ∀ i, i < input.size → _ := fun i hi =>
      keepInf_entry (l := ⟨mn, mx, ⟨input.size, some mn, some mx⟩⟩) (v := -2) c1 c2 c1 hi
    have k2 : ∀ i, i < input.size → _ := fun i hi =>
      keepInf_entry (l := ⟨mn, mx, ⟨input.size, some mn, some mx⟩⟩) (v := 2) c1 c2 c2 hi
    have s1 : Bnd.all input.size (fun x y => !(y.add (-eps)).lt x) (keepInf ⟨mn, mx, ⟨input.size, some mn, some mx⟩⟩ mn (-2)) mx = true := by
      apply all_iff.2
      intro i hi
      rw [k1 i hi]
      have hA := hap' i hi
      have hN := hneg i
      have b1 := boundAt_entry c1 hi
      have b2 := boundAt_entry c2 hi
      dsimp only
      cases e1 : mn.entry i <;> cases e2 : mx.entry i <;> rw [e1, e2] at hA <;> rw [e1] at b1 <;> rw [e2] at b2
      case fin.fin a b =>
        have := hN a b hi b1 b2
        show (!decide (b + -eps < -2)) = true
        rw [decide_eq_false (by linarith)]
        rfl
      all_goals first | rfl | exact hA.elim
    have s2 : Bnd.all input.size (fun x y => !y.lt (x.add eps)) (keepInf ⟨mn, mx, ⟨input.size, some mn, some mx⟩⟩ mn (-2))
        (keepInf ⟨mn, mx, ⟨input.size, some mn, some mx⟩⟩ mx 2) = true := by
      apply all_iff.2
      intro i hi
      rw [k1 i hi, k2 i hi]
      have hA := hap' i hi
      dsimp only
      cases e1 : mn.entry i <;> cases e2 : mx.entry i <;> rw [e1, e2] at hA
      case fin.fin a b =>
        show (!decide (2 < -2 + eps)) = true
        rw [decide_eq_false (by linarith)]
        rfl
      all_goals first | rfl | exact hA.elim
    show (setMin eps ⟨input.size, some mn, some mx⟩ _ >>= _) = _
    unfold setMin
    dsimp only
    rw [if_pos s1]
    show setMax eps ⟨input.size, some _, some mx⟩ _ = _
    unfold setMax
    dsimp only
    rw [if_pos s2]
  · intro i b b' hi hb hb'
    have k1 := keepInf_entry (l := ⟨mn, mx, ⟨input.size, some mn, some mx⟩⟩) (v := -2) c1 c2 c1 hi
    have k2 := keepInf_entry (l := ⟨mn, mx, ⟨input.size, some mn, some mx⟩⟩) (v := 2) c1 c2 c2 hi
    have p1 := boundAt_entry (keepInf_complete (l := ⟨mn, mx, ⟨input.size, some mn, some mx⟩⟩) (v := -2) c1 c2 c1) hi
    have p2 := boundAt_entry (keepInf_complete (l := ⟨mn, mx, ⟨input.size, some mn, some mx⟩⟩) (v := 2) c1 c2 c2) hi
    rw [k1] at p1
    rw [k2] at p2
    dsimp only at p1 p2
    rw [entry_of_boundAt hb, entry_of_boundAt hb'] at p1 p2
    constructor
    · rintro ⟨e, e'⟩
      rw [e, e'] at p1 p2
      exact ⟨p1, p2⟩
    · intro e
      have e : (b.isInf || b'.isInf) = true := Bool.or_eq_true_iff.2 e
      rw [e] at p1 p2
      exact ⟨p1, p2⟩

/-- States whose upper bound is below -2 are accepted, but the announced range cannot be set: the new lower bound is compared with the old
upper bound. -/
theorem negative_violation (eps a b : K) (n : Nat) (he : 0 < eps) (hab : a + eps ≤ b) (hb : b < -2 + eps) (hn : 0 < n) :
    ∃ l, linear eps none none ⟨n, some (.one (.fin a)), some (.one (.fin b))⟩ = .ok l ∧ announced eps l = .error .value := by
  refine ⟨_, linear_accepts he .input .input (fun i _ => hab), ?_⟩
  have hk : keepInf (K := K) ⟨.one (.fin a), .one (.fin b), ⟨n, some (.one (.fin a)), some (.one (.fin b))⟩⟩ (.one (.fin a)) (-2) =
      .one (.fin (-2)) := by
    unfold keepInf
    rw [if_pos (all_iff.2 (fun _ _ => rfl))]
  unfold announced
  dsimp only
  rw [hk]
  unfold setMin
  dsimp only
  rw [if_neg]
  · rfl
  · intro h
    have h0 := all_iff.1 h 0 hn
    have h0 : (!decide (b + -eps < -2)) = true := h0
    rw [decide_eq_true (by linarith)] at h0
    cases h0

omit [LinearOrder K] [IsStrictOrderedRing K] [Field K] in
/-- Given bounds within those of the states: accepted, but a state of the specified range is mapped outside of the announced range. -/
theorem narrow_violation : ∃ l r, linear (K := ℚ) (1 / 1000000) (some (.one (.fin 0))) (some (.one (.fin 1)))
      ⟨1, some (.one (.fin 0)), some (.one (.fin 10))⟩ = .ok l ∧ announced (1 / 1000000) l = .ok r ∧
      Contains ⟨1, some (.one (.fin 0)), some (.one (.fin (10 : ℚ)))⟩ [10] ∧ applyLinear l [10] = [38] ∧ ¬ Contains r (applyLinear l [10]) := by
  refine ⟨⟨.one (.fin 0), .one (.fin 1), ⟨1, some (.one (.fin 0)), some (.one (.fin 10))⟩⟩,
    ⟨1, some (.one (.fin (-2))), some (.one (.fin 2))⟩, by decide +kernel, by decide +kernel, ⟨rfl, ?_⟩, by decide +kernel, ?_⟩
  · intro i x hx
    cases i with
    | zero =>
      cases hx
      refine ⟨fun m hm => ?_, fun m hm => ?_⟩
      · cases hm; exact ⟨_, .one, by show (0 : ℚ) ≤ 10; decide +kernel⟩
      · cases hm; exact ⟨_, .one, by show (10 : ℚ) ≤ 10; decide +kernel⟩
    | succ i => cases hx
  · intro hc
    have h38 : applyLinear (K := ℚ) ⟨.one (.fin 0), .one (.fin 1), ⟨1, some (.one (.fin 0)), some (.one (.fin 10))⟩⟩ [10] = [38] := by
      decide +kernel
    rw [h38] at hc
    obtain ⟨b, hb, hx⟩ := (hc.2 0 38 rfl).2 _ rfl
    have := entry_of_boundAt hb
    have e : b = .fin (2 : ℚ) := this.symm
    subst e
    have hx : (38 : ℚ) ≤ 2 := hx
    exact absurd hx (by decide +kernel)

/-- Bounds 0 and 8: values 0, 2 and 8 become -2, -1 and 2. -/
example : applyLinear (K := ℚ) ⟨.one (.fin 0), .one (.fin 8), ⟨3, none, none⟩⟩ [0, 2, 8] = [-2, -1, 2] := by decide +kernel

/-- One finite and one infinite entry: announced from -2 to 2 and without bounds. -/
example : ∃ l r, linear (K := ℚ) (1 / 1000000) none none ⟨2, some (.each [.fin 0, .bot]), some (.each [.fin 4, .top])⟩ = .ok l ∧
    announced (1 / 1000000) l = .ok r ∧ r.min = some (.each [.fin (-2), .bot]) ∧ r.max = some (.each [.fin 2, .top]) ∧
    applyLinear l [1, 100] = [-1, 100] := 
  ⟨⟨.each [.fin 0, .bot], .each [.fin 4, .top], ⟨2, some (.each [.fin 0, .bot]), some (.each [.fin 4, .top])⟩⟩,
    ⟨2, some (.each [.fin (-2), .bot]), some (.each [.fin 2, .top])⟩, by decide +kernel, by decide +kernel, rfl, rfl, by decide +kernel⟩

example : (Apart (1 / 1000000 : ℚ) (.fin 0) (.fin 8)) ∧ Source (K := ℚ) none (some (.one (.fin 0))) (.one (.fin 0)) ∧
    ¬ Strict (.fin (1 : ℚ)) (.fin 1) := by
  refine ⟨?_, .input, ?_⟩
  · show (0 + 1 / 1000000 : ℚ) ≤ 8; decide +kernel
  · show ¬ ((1 : ℚ) < 1); decide +kernel

/-- A state between -5 and -3 (angles, depths): the layer is made, but its output cannot be announced. -/
example : ∃ l, linear (K := ℚ) (1 / 1000000) none none ⟨1, some (.one (.fin (-5))), some (.one (.fin (-3)))⟩ = .ok l ∧
    announced (1 / 1000000) l = .error .value :=
  negative_violation _ _ _ 1 (by decide +kernel) (by decide +kernel) (by decide +kernel) (by decide)

end Verif.Props.Linear
