import Verif.Policy.Soft
import Verif.Policy.ZipLemmas
import Verif.Policy.Value
import Verif.Policy.Real

/-!
# Further theorems about the parameters of distributions (C57, C58, C59, C60)

* `scale_positive`, `scale_initial`: standard deviations and temperatures are positive, and one for the network output zero.
* `gaussian_scale`: for an action with two bounds the standard deviation is a quarter of that.
* `beta_parameters`, `beta_order`: both parameters are above one, and which network output is for which.
* `gumbel_mono`: greater random numbers favour an action.
* `categorical_expected`, `bernoulli_expected`: entropy and divergence are expected values of log-probabilities.
* `gaussian_entropy_partial`, `beta_entropy_partial`, `beta_kl_partial`: the same for float actions, given the expected values of
  squares and logarithms, without the transformation to bounds.
* `value_order`: action values are ordered as the network outputs.
* `per_action_broadcast`: values of a wrong shape in the mode separate-per-action.
-/

namespace Verif.Props.Parameters

open Verif.Policy

section Field

variable {K : Type} [Field K] [LinearOrder K] [IsStrictOrderedRing K]

/-- Scales are positive. -/
theorem scale_positive {f : Fns K} (hf : Laws f) (x : K) : 0 < softplusScale f x := by
  refine div_pos ?_ ?_
  · have := hf.softplus_nonneg (clip x (f.log eps) (-f.log eps))
    have : (0 : K) < 1 / 5 := by norm_num
    linarith
  · have h := hf.log_mono 1 2 one_pos (by norm_num)
    rw [hf.log_one] at h
    have : (0 : K) < 1 / 5 := by norm_num
    linarith

/-- The standard deviation of an action with two bounds is a quarter of the scale, that of other actions the scale. -/
theorem gaussian_scale (f : Fns K) (l h mean x : K) :
    (gaussianParams f (some l) (some h) mean x).stddev = softplusScale f x / 4 ∧
      (gaussianParams f (some l) none mean x).stddev = softplusScale f x ∧
      (gaussianParams f none (some h) mean x).stddev = softplusScale f x ∧
      (gaussianParams f none none mean x).stddev = softplusScale f x := by
  refine ⟨?_, ?_, ?_, ?_⟩ <;> simp [gaussianParams, div_eq_mul_inv]

/-- Both parameters of a beta distribution are at least one. -/
theorem beta_parameters {f : Fns K} (hf : Laws f) (x y : K) :
    1 ≤ (betaParams f x y).alpha ∧ 1 ≤ (betaParams f x y).beta := by
  constructor
  · show 1 ≤ f.exp _ + 1
    linarith [hf.exp_nonneg (clip x (f.log eps) (-f.log eps))]
  · show 1 ≤ f.exp _ + 1
    linarith [hf.exp_nonneg (clip y (f.log eps) (-f.log eps))]

/-- Gumbel noise grows with the random number. -/
theorem gumbel_mono {f : Fns K} (hf : Laws f) {u v : K} (h0 : 0 < u) (huv : u ≤ v) (h1 : v < 1) :
    gumbel f u ≤ gumbel f v := by
  have h2 := hf.log_mono u v h0 huv
  have h3 := hf.log_le v (h0.trans_le huv)
  have h4 := hf.log_mono (-f.log v) (-f.log u) (by linarith) (by linarith)
  unfold gumbel
  linarith

example : (0 : ℚ) < 1 / 4 ∧ (1 / 4 : ℚ) ≤ 1 / 2 ∧ (1 / 2 : ℚ) < 1 := by norm_num

/-- Expected value of `g` over the actions of a categorical distribution. -/
def expected (c : CategoricalParams K) (g : Nat → K) : K :=
  ((List.range c.probabilities.length).map fun i => c.probabilities.getD i 0 * g i).sum

/-- Entropy and divergence of categorical distributions are the expected values of the negative log-probability, and of the
difference of the log-probabilities. -/
theorem categorical_expected (f : Fns K) (raw raw' : Option K) (mask mask' : Option (List Bool)) (vs vs' : List K)
    (hl : (categoricalParams f raw mask vs).probabilities.length = (categoricalParams f raw' mask' vs').probabilities.length) :
    let c := categoricalParams f raw mask vs
    let d := categoricalParams f raw' mask' vs'
    categoricalEntropy c = -expected c (fun i => (categoricalLogProb c i).getD 0) ∧
      categoricalKl c d = expected c fun i => (categoricalLogProb c i).getD 0 - (categoricalLogProb d i).getD 0 := by
  intro c d
  have hc : c.probabilities.length = c.logits.length := by cases raw <;> simp [c, categoricalParams]
  have hd : d.probabilities.length = d.logits.length := by cases raw' <;> simp [d, categoricalParams]
  have hl' : c.probabilities.length = d.probabilities.length := hl
  constructor
  · unfold categoricalEntropy expected
    rw [zip_range _ _ hc]
    simp only [categoricalLogProb, List.getD_eq_getElem?_getD]
  · unfold categoricalKl expected
    rw [zip_range _ _ (by simp; omega)]
    congr 1
    apply List.map_congr_left
    intro i hi
    have h1 : i < c.probabilities.length := List.mem_range.1 hi
    have h2 : i < c.logits.length := hc ▸ h1
    have h3 : i < d.logits.length := hd ▸ (hl' ▸ h1)
    simp [categoricalLogProb, List.getD_eq_getElem?_getD, h2, h3]

example : (categoricalParams (K := ℚ) ⟨id, id, id, id, id, id, id, id⟩ none none [1, 2]).probabilities.length =
    (categoricalParams (K := ℚ) ⟨id, id, id, id, id, id, id, id⟩ none none [3, 2]).probabilities.length := by
  simp [categoricalParams, softmax, applyMask]

/-- Entropy and divergence of boolean actions. -/
theorem bernoulli_expected (p q : BernoulliParams K) :
    bernoulliEntropy p = -(p.probability * bernoulliLogProb p true + (1 - p.probability) * bernoulliLogProb p false) ∧
      bernoulliKl p q = p.probability * (bernoulliLogProb p true - bernoulliLogProb q true) +
        (1 - p.probability) * (bernoulliLogProb p false - bernoulliLogProb q false) := by
  constructor
  · simp only [bernoulliEntropy, bernoulliLogProb, if_true, Bool.false_eq_true, if_false]
    ring
  · simp [bernoulliKl, bernoulliLogProb]

/-- The entropy of a normal distribution is the negative log-probability of its mean, plus one half: the expected value of the
negative log-probability if the expected square distance from the mean is the variance. -/
theorem gaussian_entropy_partial (f : Fns K) (h : K) (p : GaussianParams K) :
    gaussianEntropy (h + 1 / 2) p = -gaussianLogProb f h none none none p p.mean + 1 / 2 := by
  simp only [gaussianEntropy, gaussianLogProb, unbound]
  ring

/-- Expected logarithm of a beta distributed number, by the parameter of the number and the sum of both parameters. -/
def expectedLog (f : Fns K) (own sum : K) : K := f.digamma own - f.digamma sum

/-- Entropy of beta distributions. -/
theorem beta_entropy_partial (f : Fns K) (x y : K) :
    let p := betaParams f x y
    betaEntropy f p = p.logNorm - (p.beta - 1) * expectedLog f p.beta p.alphaBeta -
      (p.alpha - 1) * expectedLog f p.alpha p.alphaBeta := by
  intro p
  have h : p.alphaBeta = p.alpha + p.beta := rfl
  simp only [betaEntropy, expectedLog, h]
  ring

/-- Divergence of beta distributions. -/
theorem beta_kl_partial (f : Fns K) (x y x' y' : K) :
    let p := betaParams f x y
    let q := betaParams f x' y'
    betaKl f p q = q.logNorm - p.logNorm + (p.beta - q.beta) * expectedLog f p.beta p.alphaBeta +
      (p.alpha - q.alpha) * expectedLog f p.alpha p.alphaBeta := by
  intro p q
  have h : p.alphaBeta = p.alpha + p.beta := rfl
  have h' : q.alphaBeta = q.alpha + q.beta := rfl
  simp only [betaKl, expectedLog, h, h']
  ring

/-- Differences of action values are those of the network outputs, in both modes. -/
theorem value_order (mode : Mode) (state : K) (e : Element K) (i j : Nat) (v w x y : K)
    (hv : (e.values mode state)[i]? = some v) (hw : (e.values mode state)[j]? = some w) (hx : e.outputs[i]? = some x)
    (hy : e.outputs[j]? = some y) : v - w = x - y := by
  cases mode with
  | implicit =>
    have h1 : e.outputs[i]? = some v := hv
    have h2 : e.outputs[j]? = some w := hw
    rw [hx] at h1
    rw [hy] at h2
    cases h1
    cases h2
    rfl
  | separate =>
    simp only [Element.values, List.getElem?_map, hx, hy, Option.map_some, Option.some.injEq] at hv hw
    rw [← hv, ← hw]
    ring

example : ((Element.int [1, 2] none).values .implicit (0 : ℚ))[1]? = some 2 := rfl

/-- The values of an action of shape `[1]` get the size of the state. -/
theorem per_action_broadcast (batch size numValues : Nat) :
    perActionShape batch size [1] numValues = some [batch, size, numValues] := by
  by_cases h : 1 = numValues
  · subst h
    simp [perActionShape, broadcastShape, broadcastAll]
  · by_cases h2 : numValues = 1
    · exact absurd h2.symm h
    · simp [perActionShape, broadcastShape, broadcastAll, h, h2]

end Field

/-- The network output zero gives scale one. -/
theorem scale_initial : softplusScale realFns 0 = 1 := by
  have h1 : Real.log eps ≤ 0 := Real.log_nonpos (by unfold eps; norm_num) (by unfold eps; norm_num)
  have hc : clip (0 : ℝ) (realFns.log eps) (-realFns.log eps) = 0 := by
    show min (max 0 (Real.log eps)) (-Real.log eps) = 0
    rw [max_eq_left h1, min_eq_left (by linarith)]
  unfold softplusScale
  rw [hc]
  show (Real.log (1 + Real.exp 0) + 1 / 5) / (Real.log 2 + 1 / 5) = 1
  have : 0 < Real.log 2 := Real.log_pos (by norm_num)
  rw [Real.exp_zero, one_add_one_eq_two]
  exact div_self (by linarith)

/-- A greater first output lowers the deterministic action of a beta distribution, a greater second output raises it (within the
limits of the outputs, `log 1e-6` and `-log 1e-6`). -/
theorem beta_order {lo hi x x' y : ℝ} (h : lo < hi) (h1 : Real.log eps ≤ x) (h2 : x < x') (h3 : x' ≤ -Real.log eps) :
    betaMode lo hi (betaParams realFns x' y) < betaMode lo hi (betaParams realFns x y) ∧
      betaMode lo hi (betaParams realFns y x) < betaMode lo hi (betaParams realFns y x') := by
  have hc : clip x (realFns.log eps) (-realFns.log eps) = x := by
    show min (max x (Real.log eps)) (-Real.log eps) = x
    rw [max_eq_left h1, min_eq_left (by linarith)]
  have hc' : clip x' (realFns.log eps) (-realFns.log eps) = x' := by
    show min (max x' (Real.log eps)) (-Real.log eps) = x'
    rw [max_eq_left (by linarith), min_eq_left h3]
  have he : Real.exp x < Real.exp x' := Real.exp_lt_exp.2 h2
  have p1 := Real.exp_pos x
  have p2 := Real.exp_pos (clip y (realFns.log eps) (-realFns.log eps))
  simp only [betaMode, betaParams, hc, hc']
  have e1 : realFns.exp = Real.exp := rfl
  rw [e1]
  generalize Real.exp (clip y (realFns.log eps) (-realFns.log eps)) = b at *
  generalize Real.exp x = a at *
  generalize Real.exp x' = a' at *
  constructor
  · have : (b + 1) / (a' + 1 + (b + 1)) < (b + 1) / (a + 1 + (b + 1)) :=
      div_lt_div_of_pos_left (by linarith) (by linarith) (by linarith)
    nlinarith
  · have : (a + 1) / (b + 1 + (a + 1)) < (a' + 1) / (b + 1 + (a' + 1)) := by
      rw [div_lt_div_iff₀ (by linarith) (by linarith)]
      nlinarith
    nlinarith

example : Real.log eps ≤ 0 ∧ (0 : ℝ) < 1 ∧ (1 : ℝ) ≤ -Real.log eps := by
  have h : Real.log (eps : ℝ) ≤ -1 := by
    have := Real.log_le_sub_one_of_pos (x := (eps : ℝ)) (by unfold eps; norm_num)
    have h2 : Real.log (eps : ℝ) ≤ Real.log (Real.exp (-1)) := by
      apply Real.log_le_log (by unfold eps; norm_num)
      have h3 := exp_neg_fourteen
      have h4 := Real.add_one_le_exp (-1 / 2 : ℝ)
      have h5 : Real.exp (-1) = Real.exp (-1 / 2) * Real.exp (-1 / 2) := by rw [← Real.exp_add]; norm_num
      rw [h5]
      unfold eps
      nlinarith
    rwa [Real.log_exp] at h2
  exact ⟨by linarith, one_pos, by linarith⟩

end Verif.Props.Parameters
