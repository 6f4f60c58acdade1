import Verif.Policy.Lemmas
import Mathlib.Algebra.Order.Ring.Rat
import Mathlib.Algebra.Field.Rat

/-! # Rational functions which satisfy the laws -/

namespace Verif.Policy

/-- Rational functions which satisfy the laws, to evaluate examples. -/
def stepFns : Fns ℚ where
  exp x := if x < 0 then 0 else 1
  log x := if x < 1 then -1 else 0
  tanh x := x / (1 + |x|)
  atanh y := y / (1 - |y|)
  softplus x := if x < 0 then 0 else x + 1
  sigmoid x := if x < 0 then 1 / 4 else 3 / 4
  lgamma _ := 0
  digamma _ := 0

theorem step_laws : Laws stepFns where
  exp_nonneg x := by
    simp only [stepFns]
    split <;> norm_num
  exp_zero := by simp [stepFns]
  exp_mono x y h := by
    simp only [stepFns]
    split <;> split <;> first | (norm_num; done) | (exfalso; linarith)
  exp_small := by norm_num [stepFns, eps]
  log_one := by norm_num [stepFns]
  log_mono x y _ h := by
    simp only [stepFns]
    split <;> split <;> first | (norm_num; done) | (exfalso; linarith)
  log_le x h := by
    simp only [stepFns]
    split <;> linarith
  log_eps := by norm_num [stepFns, eps]
  tanh_gt x := by
    have h := abs_nonneg x
    have h' := neg_abs_le x
    show -1 < x / (1 + |x|)
    rw [lt_div_iff₀ (by linarith)]
    linarith
  tanh_lt x := by
    have h := abs_nonneg x
    have h' := le_abs_self x
    show x / (1 + |x|) < 1
    rw [div_lt_one (by linarith)]
    linarith
  atanh_tanh x := by
    have h := abs_nonneg x
    show x / (1 + |x|) / (1 - |x / (1 + |x|)|) = x
    rw [abs_div, abs_of_pos (by linarith : (0 : ℚ) < 1 + |x|)]
    have h1 : (1 : ℚ) + |x| ≠ 0 := by
      intro e
      linarith
    have h2 : 1 - |x| / (1 + |x|) = 1 / (1 + |x|) := by
      field_simp
      ring
    rw [h2]
    field_simp
  tanh_atanh y h1 h2 := by
    have h : |y| < 1 := abs_lt.2 ⟨h1, h2⟩
    show y / (1 - |y|) / (1 + |y / (1 - |y|)|) = y
    rw [abs_div, abs_of_pos (by linarith : (0 : ℚ) < 1 - |y|)]
    have h3 : (1 : ℚ) - |y| ≠ 0 := by
      intro e
      linarith
    have h4 : 1 + |y| / (1 - |y|) = 1 / (1 - |y|) := by
      field_simp
      ring
    rw [h4]
    field_simp
  softplus_nonneg x := by
    simp only [stepFns]
    split <;> linarith
  sigmoid_nonneg x := by
    simp only [stepFns]
    split <;> norm_num
  sigmoid_le x := by
    simp only [stepFns]
    split <;> norm_num

end Verif.Policy
