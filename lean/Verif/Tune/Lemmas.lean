import Verif.Tune.Spec
import Mathlib.Algebra.Order.Ring.Defs
import Mathlib.Tactic.Linarith
import Mathlib.Tactic.NormNum

/-!
# Lemmas on the tuner
-/

namespace Verif.Tune

theorem round_ok (base budget left k j : Nat) (hb : 2 ≤ base) (h : base ^ (k + j) = budget) (hj : j < left) : roundOf base budget left k = .ok (k + j) := by
  induction left generalizing k j with
  | zero => omega
  | succ left ih =>
    rw [roundOf]
    by_cases e : base ^ k = budget
    · rw [if_pos e]
      have : k = k + j := Nat.pow_right_injective hb (e.trans h.symm)
      rw [← this]
    · rw [if_neg e]
      cases j with
      | zero => exact absurd h e
      | succ j =>
        rw [ih (k + 1) j (by rw [← h]; congr 1; omega) (by omega)]
        congr 1
        omega

theorem round_error (base budget left k : Nat) (h : ∀ j < left, base ^ (k + j) ≠ budget) : roundOf base budget left k = .error .assertion := by
  induction left generalizing k with
  | zero => rfl
  | succ left ih =>
    rw [roundOf, if_neg (show base ^ k ≠ budget from h 0 (by omega))]
    refine ih (k + 1) fun j hj => ?_
    have := h (j + 1) (by omega)
    rwa [show k + 1 + j = k + (j + 1) by omega]

section
variable {K : Type} [Field K] [LinearOrder K]

theorem total_eq (l : List K) : total l = l.sum := by
  induction l with
  | nil => rfl
  | cons x l ih => rw [total, ih, List.sum_cons]

theorem mean_is [IsStrictOrderedRing K] (l : List K) (h : l ≠ []) : ∃ m, mean l = some m ∧ IsMean l m := by
  refine ⟨_, if_neg h, h, ?_⟩
  have : (l.length : K) ≠ 0 := Nat.cast_ne_zero.2 (fun h0 => h (List.length_eq_zero_iff.1 h0))
  rw [total_eq, div_mul_cancel₀ _ this]

theorem last_is (l : List K) : IsLast 20 l (last20 l) :=
  ⟨l.take (l.length - 20), (List.take_append_drop _ _).symm, by unfold last20; rw [List.length_drop]; omega⟩

theorem last_ne (l : List K) (h : l ≠ []) : last20 l ≠ [] := fun h0 => by
  have := congrArg List.length h0
  unfold last20 at this
  rw [List.length_drop, List.length_nil] at this
  have := List.length_pos_iff.2 h
  omega

theorem means_is [IsStrictOrderedRing K] (f : List K → List K) (runs : List (List K)) (h : ∀ r ∈ runs, f r ≠ []) :
    ∃ ms, means f runs = some ms ∧ ms.length = runs.length ∧ ∀ (i : Nat) (r : List K) (m : K), runs[i]? = some r → ms[i]? = some m → IsMean (f r) m := by
  induction runs with
  | nil => exact ⟨[], rfl, rfl, fun i r m h => by cases h⟩
  | cons r rs ih =>
    obtain ⟨m, h1, h2⟩ := mean_is (f r) (h r List.mem_cons_self)
    obtain ⟨ms, h3, h4, h5⟩ := ih fun r hr => h r (List.mem_cons_of_mem _ hr)
    refine ⟨m :: ms, by rw [means, h1]; simp only; rw [h3], by rw [List.length_cons, List.length_cons, h4], fun i r' m' hr hm => ?_⟩
    cases i with
    | zero => cases hr; cases hm; exact h2
    | succ i => exact h5 i r' m' hr hm

theorem mean_unique [IsStrictOrderedRing K] {l : List K} {m m' : K} (h : IsMean l m) (h' : IsMean l m') : m = m' := by
  have : (l.length : K) ≠ 0 := Nat.cast_ne_zero.2 (fun h0 => h.1 (List.length_eq_zero_iff.1 h0))
  exact mul_right_cancel₀ this (h.2.trans h'.2.symm)

theorem sum_le [IsStrictOrderedRing K] (l l' : List K) (hl : l.length = l'.length) (h : ∀ (i : Nat) (x y : K), l[i]? = some x → l'[i]? = some y → x ≤ y) :
    l.sum ≤ l'.sum := by
  induction l generalizing l' with
  | nil => cases l' with | nil => exact le_refl _ | cons => simp at hl
  | cons x l ih =>
    cases l' with
    | nil => simp at hl
    | cons y l' =>
      rw [List.sum_cons, List.sum_cons]
      exact add_le_add (h 0 x y rfl rfl) (ih l' (by simpa using hl) fun i => h (i + 1))

theorem mean_le [IsStrictOrderedRing K] {l l' : List K} {m m' : K} (hm : IsMean l m) (hm' : IsMean l' m') (hl : l.length = l'.length)
    (h : ∀ (i : Nat) (x y : K), l[i]? = some x → l'[i]? = some y → x ≤ y) : m ≤ m' := by
  have hp : (0 : K) < (l.length : K) := Nat.cast_pos.2 (List.length_pos_iff.2 hm.1)
  have := sum_le l l' hl h
  rw [← hm.2, ← hm'.2, ← hl] at this
  exact le_of_mul_le_mul_right this hp

end

end Verif.Tune
