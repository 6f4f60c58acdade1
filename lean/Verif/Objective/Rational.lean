import Verif.Objective.Spec
import Verif.Policy.Rational
import Mathlib.Tactic.Linarith
import Mathlib.Tactic.FieldSimp

/-!
# A rational exponential function for examples

`exp x = 1 + x` for `x ≥ 0` and `1 / (1 - x)` for `x < 0`, with its inverse.
-/

namespace Verif.Objective

open Verif.Policy

/-- Rational functions with the laws used for policy gradients. -/
def hyperFns : Fns ℚ :=
  { stepFns with
    exp := fun x => if 0 ≤ x then 1 + x else 1 / (1 - x)
    log := fun y => if 1 ≤ y then y - 1 else 1 - 1 / y }

theorem hyper_exp (x : ℚ) : hyperFns.exp x = if 0 ≤ x then 1 + x else 1 / (1 - x) := rfl

theorem hyper_log (y : ℚ) : hyperFns.log y = if 1 ≤ y then y - 1 else 1 - 1 / y := rfl

theorem hyper_laws : ExpLaws hyperFns where
  exp_pos x := by
    rw [hyper_exp]
    split
    · linarith
    · exact div_pos one_pos (by linarith)
  exp_mono x y h := by
    rw [hyper_exp, hyper_exp]
    split <;> split
    · linarith
    · linarith
    · rename_i h1 h2
      have : 1 / (1 - x) ≤ 1 := by
        rw [div_le_one (by linarith)]
        linarith
      linarith
    · rename_i h1 h2
      apply one_div_le_one_div_of_le <;> linarith
  exp_neg x := by
    rw [hyper_exp, hyper_exp]
    rcases lt_trichotomy x 0 with h | h | h
    · rw [if_pos (by linarith), if_neg (by linarith), one_div_one_div]
      ring
    · subst h; norm_num
    · rw [if_neg (by linarith), if_pos (by linarith), sub_neg_eq_add]
  exp_log y h := by
    rw [hyper_log]
    split
    · rw [hyper_exp, if_pos (by linarith)]
      ring
    · rename_i h1
      have h2 : 1 < 1 / y := by
        rw [lt_div_iff₀ h]
        linarith
      rw [hyper_exp, if_neg (by linarith), sub_sub_cancel, one_div_one_div]
  log_exp x := by
    rw [hyper_exp]
    split
    · rw [hyper_log, if_pos (by linarith)]
      ring
    · rename_i h1
      have h2 : 1 / (1 - x) < 1 := by
        rw [div_lt_one (by linarith)]
        linarith
      rw [hyper_log, if_neg (by linarith), one_div_one_div]
      ring

end Verif.Objective
