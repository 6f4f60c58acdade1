import Verif.Policy.Spec
import Mathlib.Analysis.SpecialFunctions.Log.Basic
import Mathlib.Analysis.SpecialFunctions.Artanh
import Mathlib.Analysis.SpecialFunctions.Gamma.Basic
import Mathlib.Analysis.Complex.ExponentialBounds
import Mathlib.Tactic.Linarith
import Mathlib.Tactic.NormNum
import Mathlib.Tactic.Positivity
import Mathlib.Tactic.FieldSimp
import Mathlib.Tactic.Ring

/-! # The real elementary functions satisfy the laws -/

namespace Verif.Policy

/-- The real elementary functions. -/
noncomputable def realFns : Fns ℝ where
  exp := Real.exp
  log := Real.log
  tanh := Real.tanh
  atanh := Real.artanh
  softplus := fun x => Real.log (1 + Real.exp x)
  sigmoid := fun x => 1 / (1 + Real.exp (-x))
  lgamma := fun x => Real.log |Real.Gamma x|
  digamma := deriv fun x => Real.log |Real.Gamma x|

theorem exp_neg_fourteen : Real.exp (-14) < 1 / 1000000 := by
  have h1 : (2.7182818283 : ℝ) ^ 14 < Real.exp 1 ^ 14 :=
    pow_lt_pow_left₀ Real.exp_one_gt_d9 (by norm_num) (by norm_num)
  have h2 : Real.exp 14 = Real.exp 1 ^ 14 := by
    rw [← Real.exp_nat_mul]
    norm_num
  rw [Real.exp_neg, h2, ← one_div]
  refine one_div_lt_one_div_of_lt (by norm_num) (lt_trans ?_ h1)
  norm_num

theorem real_laws : Laws realFns where
  exp_nonneg x := le_of_lt (Real.exp_pos x)
  exp_zero := Real.exp_zero
  exp_mono _ _ h := Real.exp_le_exp.2 h
  exp_small := exp_neg_fourteen
  log_one := Real.log_one
  log_mono _ _ h0 h := Real.log_le_log h0 h
  log_le _ h := Real.log_le_sub_one_of_pos h
  log_eps := by
    show (-14 : ℝ) ≤ Real.log (1 / 1000000)
    rw [Real.le_log_iff_exp_le (by norm_num)]
    exact le_of_lt exp_neg_fourteen
  tanh_gt := Real.neg_one_lt_tanh
  tanh_lt := Real.tanh_lt_one
  atanh_tanh := Real.artanh_tanh
  tanh_atanh _ h1 h2 := Real.tanh_artanh ⟨h1, h2⟩
  softplus_nonneg x := Real.log_nonneg (by linarith [Real.exp_pos x])
  sigmoid_nonneg x := by
    show 0 ≤ 1 / (1 + Real.exp (-x))
    positivity
  sigmoid_le x := by
    show 1 / (1 + Real.exp (-x)) ≤ 1
    rw [div_le_one (by positivity)]
    linarith [Real.exp_pos (-x)]

theorem log_one_sub_tanh_sq (x : ℝ) :
    Real.log (1 - Real.tanh x ^ 2) = 2 * (Real.log 2 - x - Real.log (1 + Real.exp (-2 * x))) := by
  have hc := Real.cosh_pos x
  have e1 : 1 - Real.tanh x ^ 2 = (Real.cosh x ^ 2)⁻¹ := by
    rw [Real.tanh_eq_sinh_div_cosh, div_pow]
    have := Real.cosh_sq x
    have h2 : Real.cosh x ^ 2 ≠ 0 := by positivity
    field_simp
    linarith
  have e2 : Real.cosh x = Real.exp x * (1 + Real.exp (-2 * x)) / 2 := by
    rw [Real.cosh_eq, mul_add, mul_one, ← Real.exp_add]
    congr 3
    ring
  have h1 : (1 + Real.exp (-2 * x)) ≠ 0 := by positivity
  rw [e1, Real.log_inv, Real.log_pow, e2, Real.log_div (mul_ne_zero (Real.exp_ne_zero x) h1) two_ne_zero,
    Real.log_mul (Real.exp_ne_zero x) h1, Real.log_exp]
  push_cast
  ring

end Verif.Policy
