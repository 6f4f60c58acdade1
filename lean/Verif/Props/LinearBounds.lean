import Verif.Norm.BoundLemmas

/-!
# Linear normalization: bounds given and bounds of the states together (C119), default axes (C121)
-/

namespace Verif.Props.LinearBounds

open Verif.Norm

variable {K : Type} [Field K] [LinearOrder K]

/-- The bounds of the input become: those used if the states have none; otherwise the larger upper bound, and the larger of two single
lower bounds, but the smaller one of arrays, entry by entry. -/
theorem unified (eps : K) (g1 g2 : Option (Bnd K)) (input : Range K) (l : Linear K) (h : linear eps g1 g2 input = .ok l) :
    (input.min = none → l.input.min = some l.min) ∧ (input.max = none → l.input.max = some l.max) ∧
    (∀ m, input.min = some m → Complete input.size l.min → Complete input.size m → ∃ m', l.input.min = some m' ∧ ∀ i x y, i < input.size →
      BoundAt l.min i x → BoundAt m i y → ∃ z, BoundAt m' i z ∧
        ((∃ a b, l.min = .one a ∧ m = .one b) → Larger x y z) ∧ ((∃ k, l.min = .each k ∨ m = .each k) → Smaller x y z)) ∧
    (∀ m, input.max = some m → Complete input.size l.max → Complete input.size m → ∃ m', l.input.max = some m' ∧ ∀ i x y, i < input.size →
      BoundAt l.max i x → BoundAt m i y → ∃ z, BoundAt m' i z ∧ Larger x y z) := by
  rw [linear_input h]
  refine ⟨fun e => by rw [e]; rfl, fun e => by rw [e]; rfl, ?_, ?_⟩
  · intro m e c1 c2
    rw [e]
    refine ⟨_, rfl, fun i x y hi hx hy => ?_⟩
    obtain ⟨h1, h2, h3⟩ := unifyMin_entry c1 c2 hi rfl
    rw [← entry_of_boundAt hx, ← entry_of_boundAt hy]
    exact ⟨_, boundAt_entry h1 hi, h2, h3⟩
  · intro m e c1 c2
    rw [e]
    refine ⟨_, rfl, fun i x y hi hx hy => ?_⟩
    rw [← entry_of_boundAt hx, ← entry_of_boundAt hy]
    refine ⟨_, boundAt_entry (zip_complete c1 c2) hi, ?_⟩
    rw [zip_entry c1 c2 hi]
    exact larger _ _

variable [IsStrictOrderedRing K]

/-- Bounds given for states with other bounds are accepted if both those given and those unified are apart. -/
theorem accepted_both (eps : K) (mn mx m m' : Bnd K) (n : Nat) (he : 0 < eps) (c1 : Complete n mn) (c2 : Complete n mx) (c3 : Complete n m)
    (c4 : Complete n m') (hap : ∀ i x y, i < n → BoundAt mn i x → BoundAt mx i y → Apart eps x y)
    (hu : ∀ i x y u v z w, i < n → BoundAt mn i x → BoundAt m i y → BoundAt mx i u → BoundAt m' i v →
      ((∃ a b, mn = .one a ∧ m = .one b) → Larger x y z) → ((∃ k, mn = .each k ∨ m = .each k) → Smaller x y z) → Larger u v w → Apart eps z w) :
    ∃ l, linear eps (some mn) (some mx) ⟨n, some m, some m'⟩ = .ok l ∧ l.min = mn ∧ l.max = mx := by
  have hap' : ∀ i, i < n → Apart eps (mn.entry i) (mx.entry i) := fun i hi => hap i _ _ hi (boundAt_entry c1 hi) (boundAt_entry c2 hi)
  obtain ⟨x, hx⟩ : ∃ x, unifyMin (some mn) (some m) = some x := ⟨_, rfl⟩
  have hun : ∀ i, i < n → Apart eps (x.entry i) ((Bnd.zip Ext.max mx m').entry i) := by
    intro i hi
    obtain ⟨_, h2, h3⟩ := unifyMin_entry c1 c3 hi hx
    refine hu i _ _ _ _ _ _ hi (boundAt_entry c1 hi) (boundAt_entry c3 hi) (boundAt_entry c2 hi) (boundAt_entry c4 hi) h2 h3 ?_
    rw [zip_entry c2 c4 hi]
    exact larger _ _
  refine ⟨⟨mn, mx, ⟨n, some x, some (Bnd.zip Ext.max mx m')⟩⟩, ?_, rfl, rfl⟩
  unfold linear
  show (if Bnd.all n (fun x y => x.lt y) mn mx then _ else _) = _
  rw [if_pos (all_iff.2 (fun i hi => (lt_iff _ _).2 (apart_strict he (hap' i hi))))]
  rw [makeRange_both, if_pos (all_iff.2 (fun i hi => apart_check (hap' i hi)))]
  show (unify eps ⟨n, some mn, some mx⟩ ⟨n, some m, some m'⟩ >>= _) = _
  have hunify : unify eps ⟨n, some mn, some mx⟩ ⟨n, some m, some m'⟩ = .ok ⟨n, some x, some (Bnd.zip Ext.max mx m')⟩ := by
    unfold unify
    dsimp only
    rw [hx, show unifyMax (some mx) (some m') = some (Bnd.zip Ext.max mx m') from rfl]
    dsimp only
    rw [if_pos (all_iff.2 (fun i hi => apart_order he (hun i hi))), makeRange_both,
      if_pos (all_iff.2 (fun i hi => apart_check (hun i hi)))]
  rw [hunify]
  rfl

/-- Bounds given which are too close after unification are rejected. -/
theorem rejected_both (eps a b a' b' c d : K) (n : Nat) (hn : 0 < n) (hc : Larger (.fin a) (.fin a') (.fin c)) (hd : Larger (.fin b) (.fin b') (.fin d))
    (h : d < c + eps) : ∃ e, linear eps (some (.one (.fin a))) (some (.one (.fin b))) ⟨n, some (.one (.fin a')), some (.one (.fin b'))⟩ = .error e := by
  cases hl : linear eps (some (.one (.fin a))) (some (.one (.fin b))) ⟨n, some (.one (.fin a')), some (.one (.fin b'))⟩ with
  | error e => exact ⟨e, rfl⟩
  | ok l =>
    exfalso
    obtain ⟨mn, h1, h'⟩ := bind_ok hl
    obtain ⟨mx, h2, h'⟩ := bind_ok h'
    cases h1
    cases h2
    split at h'
    case isFalse => cases h'
    case isTrue =>
      obtain ⟨own, h3, h'⟩ := bind_ok h'
      obtain ⟨spec, h4, h'⟩ := bind_ok h'
      rw [makeRange_both] at h3
      split at h3
      case isFalse => cases h3
      case isTrue =>
        cases h3
        unfold unify at h4
        dsimp only [unifyMin, unifyMax, Bnd.zip, Bnd.isArray] at h4
        simp only [Bool.or_self, Bool.false_eq_true, if_false] at h4
        have e1 : Ext.max (.fin a) (.fin a') = .fin c := larger_unique (larger _ _) hc
        have e2 : Ext.max (.fin b) (.fin b') = .fin d := larger_unique (larger _ _) hd
        rw [e1, e2] at h4
        split at h4
        case isFalse => cases h4
        case isTrue =>
          rw [makeRange_both] at h4
          split at h4
          case isFalse => cases h4
          case isTrue hh =>
            have := all_iff.1 hh 0 hn
            change (!decide (d < c + eps)) = true at this
            rw [decide_eq_true h] at this
            cases this

/-- Which errors are raised if the bounds given are apart, but not those unified. -/
theorem rejected_errors (eps a b a' b' c d : K) (n : Nat) (he : 0 < eps) (hab : a + eps ≤ b) (hn : 0 < n) (hc : Larger (.fin a) (.fin a') (.fin c))
    (hd : Larger (.fin b) (.fin b') (.fin d)) :
    (d < c → linear eps (some (.one (.fin a))) (some (.one (.fin b))) ⟨n, some (.one (.fin a')), some (.one (.fin b'))⟩ = .error .mismatch) ∧
    (c ≤ d → d < c + eps → linear eps (some (.one (.fin a))) (some (.one (.fin b))) ⟨n, some (.one (.fin a')), some (.one (.fin b'))⟩ = .error .value) := by
  have e1 : Ext.max (.fin a) (.fin a') = .fin c := larger_unique (larger _ _) hc
  have e2 : Ext.max (.fin b) (.fin b') = .fin d := larger_unique (larger _ _) hd
  have hap : ∀ i, Apart eps ((Bnd.one (.fin a)).entry i) ((Bnd.one (.fin b)).entry i) := fun _ => hab
  have key : linear eps (some (.one (.fin a))) (some (.one (.fin b))) ⟨n, some (.one (.fin a')), some (.one (.fin b'))⟩ =
      (if Bnd.all n (fun x y => !y.lt x) (.one (.fin c)) (.one (.fin d)) then makeRange eps n (some (.one (.fin c))) (some (.one (.fin d)))
        else .error .mismatch) >>= fun spec => pure ⟨.one (.fin a), .one (.fin b), spec⟩ := by
    unfold linear
    show (if Bnd.all n (fun x y => x.lt y) (.one (.fin a)) (.one (.fin b)) then _ else _) = _
    rw [if_pos (all_iff.2 (fun i hi => (lt_iff _ _).2 (apart_strict he (hap i))))]
    rw [makeRange_both, if_pos (all_iff.2 (fun i hi => apart_check (hap i)))]
    show (unify eps ⟨n, some (.one (.fin a)), some (.one (.fin b))⟩ ⟨n, some (.one (.fin a')), some (.one (.fin b'))⟩ >>= _) = _
    unfold unify
    dsimp only [unifyMin, unifyMax, Bnd.zip, Bnd.isArray]
    simp only [Bool.or_self, Bool.false_eq_true, if_false]
    rw [e1, e2]
  rw [key]
  constructor
  · intro hdc
    rw [if_neg]
    · rfl
    · intro h
      have := all_iff.1 h 0 hn
      change (!decide (d < c)) = true at this
      rw [decide_eq_true hdc] at this
      cases this
  · intro hcd hlt
    rw [if_pos, makeRange_both, if_neg]
    · rfl
    · intro h
      have := all_iff.1 h 0 hn
      change (!decide (d < c + eps)) = true at this
      rw [decide_eq_true hlt] at this
      cases this
    · refine all_iff.2 (fun i hi => ?_)
      show (!decide (d < c)) = true
      rw [decide_eq_false (not_lt.2 hcd)]
      rfl

omit [IsStrictOrderedRing K] [Field K] [LinearOrder K] in
/-- By default exponential and batch normalization use all axes but the last one, and instance normalization all axes. -/
theorem default_axes (shape : List Nat) (k : Nat) : (k ∈ allButLast shape ↔ k + 1 < shape.length) ∧ (k ∈ allAxes shape ↔ k < shape.length) := by
  unfold allButLast allAxes
  rw [List.mem_range, List.mem_range]
  omega

/-- Lower bounds 0 and 1, upper bounds 5 and 4 for all entries; and arrays. -/
example : linear (K := ℚ) (1 / 100) (some (.one (.fin 0))) (some (.one (.fin 5))) ⟨2, some (.one (.fin 1)), some (.one (.fin 4))⟩ =
      .ok ⟨.one (.fin 0), .one (.fin 5), ⟨2, some (.one (.fin 1)), some (.one (.fin 5))⟩⟩ ∧
    linear (K := ℚ) (1 / 100) (some (.each [.fin 0, .fin 2])) (some (.one (.fin 5))) ⟨2, some (.one (.fin 1)), some (.each [.fin 4, .top])⟩ =
      .ok ⟨.each [.fin 0, .fin 2], .one (.fin 5), ⟨2, some (.each [.fin 0, .fin 1]), some (.each [.fin 5, .top])⟩⟩ := by
  refine ⟨by decide +kernel, by decide +kernel⟩

end Verif.Props.LinearBounds
