import Verif.Policy.Bounded
import Verif.Policy.Real
import Mathlib.Analysis.SpecialFunctions.Pow.Real
import Mathlib.Analysis.SpecialFunctions.Gaussian.GaussianIntegral

/-!
# Property C60: log-probabilities of float actions are logarithms of densities

* `gaussian_density_partial`: without bounds, the density of the normal distribution.
* `tanh_density_partial`: with `tanh`, this density divided by the derivative of `tanh`.
* `beta_density_partial`: the density of the beta distribution.
-/

namespace Verif.Props.Density

open Verif.Policy

/-- Density of the normal distribution with mean `m` and standard deviation `s` at `x`; the square
of the standard deviation and the standard deviation itself are separate arguments because a
different constant is added to them. -/
noncomputable def normalDensity (m s variance x : ℝ) : ℝ :=
  Real.exp (-(x - m) ^ 2 / (2 * variance)) / (Real.sqrt (2 * Real.pi) * s)

/-- Density of the beta distribution at a number whose distances from 0 and 1 are `u` and `v`. -/
noncomputable def betaDensity (a b u v : ℝ) : ℝ :=
  u ^ (a - 1) * v ^ (b - 1) * Real.Gamma (a + b) / (Real.Gamma a * Real.Gamma b)

/-- The constant `half_log_two_pi`, `gaussian.py:333`. -/
noncomputable def halfLogTwoPi : ℝ := 1 / 2 * Real.log (2 * Real.pi)

/-- The log-probability of an unbounded or clipped action is the logarithm of the density of the
normal distribution with the mean and standard deviation with which it is sampled.  Missing: `eps`
is added to the standard deviation and to its square. -/
theorem gaussian_density_partial (lo hi : Option ℝ) (x y a : ℝ) :
    let p := gaussianParams realFns lo hi x y
    gaussianLogProb realFns halfLogTwoPi none none none p a =
      Real.log (normalDensity p.mean (p.stddev + eps) (p.stddev ^ 2 + eps) a) := by
  intro p
  have hs : 0 < p.stddev := gaussian_stddev_pos real_laws lo hi x y
  have he : (0 : ℝ) < eps := eps_pos
  have h1 : 0 < p.stddev + eps := by linarith
  have h2 : 0 < 2 * Real.pi := by positivity
  have h3 : Real.sqrt (2 * Real.pi) ≠ 0 := ne_of_gt (Real.sqrt_pos.2 h2)
  unfold normalDensity
  rw [Real.log_div (Real.exp_ne_zero _) (mul_ne_zero h3 (ne_of_gt h1)), Real.log_exp,
    Real.log_mul h3 (ne_of_gt h1), Real.log_sqrt (le_of_lt h2)]
  have e : p.logStddev = Real.log (p.stddev + eps) := rfl
  show -(1 / 2) * (a - p.mean) ^ 2 / (p.stddev ^ 2 + eps) - p.logStddev - halfLogTwoPi = _
  rw [e, halfLogTwoPi]
  have h4 : p.stddev ^ 2 + eps ≠ 0 := by positivity
  field_simp
  ring

/-- With `tanh` the density is divided by the derivative of `tanh` at the value that is transformed.
Missing: `eps` as before, and the constant width of the bounds. -/
theorem tanh_density_partial (lo hi : Option ℝ) (x y a : ℝ) :
    let p := gaussianParams realFns lo hi x y
    let u := unbound realFns (some .tanh) lo hi a
    gaussianLogProb realFns halfLogTwoPi (some .tanh) lo hi p a =
      Real.log (normalDensity p.mean (p.stddev + eps) (p.stddev ^ 2 + eps) u /
        (1 - Real.tanh u ^ 2)) := by
  intro p u
  have hs : 0 < p.stddev := gaussian_stddev_pos real_laws lo hi x y
  have he : (0 : ℝ) < eps := eps_pos
  have h1 : 0 < p.stddev + eps := by linarith
  have h2 : normalDensity p.mean (p.stddev + eps) (p.stddev ^ 2 + eps) u ≠ 0 := by
    unfold normalDensity
    have : 0 < Real.sqrt (2 * Real.pi) := Real.sqrt_pos.2 (by positivity)
    positivity
  have h3 : 1 - Real.tanh u ^ 2 ≠ 0 := by
    have := Real.neg_one_lt_tanh u
    have := Real.tanh_lt_one u
    nlinarith
  rw [Real.log_div h2 h3, ← gaussian_density_partial lo hi x y u, log_one_sub_tanh_sq]
  rfl

/-- The log-probability of a beta distributed action is the logarithm of the density of the beta
distribution.  Missing: `eps` is added to the distances from the bounds, and the constant width of
the bounds. -/
theorem beta_density_partial {lo hi : ℝ} (x y a : ℝ) (h1 : lo < hi) (h2 : lo ≤ a) (h3 : a ≤ hi) :
    let p := betaParams realFns x y
    let u := (a - lo) / (hi - lo)
    betaLogProb realFns lo hi p a =
      Real.log (betaDensity p.beta p.alpha (u + eps) (1 - u + eps)) := by
  intro p u
  have he : (0 : ℝ) < eps := eps_pos
  have hd : 0 < hi - lo := by linarith
  have hu0 : 0 ≤ u := div_nonneg (by linarith) (le_of_lt hd)
  have hu1 : u ≤ 1 := by
    rw [div_le_one hd]
    linarith
  have hu : 0 < u + eps := by linarith
  have hv : 0 < 1 - u + eps := by linarith
  have ha : 0 < p.alpha := by
    show 0 < Real.exp _ + 1
    positivity
  have hb : 0 < p.beta := by
    show 0 < Real.exp _ + 1
    positivity
  have ga := Real.Gamma_pos_of_pos ha
  have gb := Real.Gamma_pos_of_pos hb
  have gab := Real.Gamma_pos_of_pos (add_pos hb ha)
  have p1 := Real.rpow_pos_of_pos hu (p.beta - 1)
  have p2 := Real.rpow_pos_of_pos hv (p.alpha - 1)
  have eN : p.logNorm = Real.log (Real.Gamma p.alpha) + Real.log (Real.Gamma p.beta) -
      Real.log (Real.Gamma (p.beta + p.alpha)) := by
    show Real.log |Real.Gamma p.alpha| + Real.log |Real.Gamma p.beta| -
      Real.log |Real.Gamma (p.alpha + p.beta)| = _
    rw [Real.log_abs, Real.log_abs, Real.log_abs, add_comm p.alpha]
  unfold betaDensity
  rw [Real.log_div (by positivity) (by positivity), Real.log_mul (by positivity) (by positivity),
    Real.log_mul (by positivity) (by positivity), Real.log_mul (by positivity) (by positivity),
    Real.log_rpow hu, Real.log_rpow hv]
  show (if p.beta - 1 = 0 then 0 else (p.beta - 1) * Real.log (u + eps)) +
    (p.alpha - 1) * Real.log (1 + (-u + eps)) - p.logNorm = _
  have e1 : (if p.beta - 1 = 0 then 0 else (p.beta - 1) * Real.log (u + eps)) =
      (p.beta - 1) * Real.log (u + eps) := by
    split
    · rename_i h
      rw [h, zero_mul]
    · rfl
  have e2 : 1 + (-u + eps) = 1 - u + eps := by ring
  rw [e1, e2, eN]
  ring

example : betaLogProb realFns 2 6 (betaParams realFns 0 0) 3 =
    Real.log (betaDensity (betaParams realFns 0 0).beta (betaParams realFns 0 0).alpha
      ((3 - 2) / (6 - 2) + eps) (1 - (3 - 2) / (6 - 2) + eps)) :=
  beta_density_partial 0 0 3 (by norm_num) (by norm_num) (by norm_num)

end Verif.Props.Density
