import Verif.Cart.Spec
import Mathlib.Analysis.SpecialFunctions.Trigonometric.Basic

/-!
# Sine, cosine and π of the real numbers
-/

namespace Verif.Cart

noncomputable def realTrig : Trig ℝ := { sin := Real.sin, cos := Real.cos, pi := Real.pi }

theorem real_laws : realTrig.Laws where
  cos_sq x := by
    have := Real.sin_sq_add_cos_sq x
    change Real.cos x * Real.cos x ≤ 1
    nlinarith [sq_nonneg (Real.sin x)]
  sin_zero := Real.sin_zero
  cos_zero := Real.cos_zero
  pi_pos := Real.pi_pos

end Verif.Cart
