import Verif.Policy.SampleLemmas
import Verif.Props.Distribution
import Mathlib.Probability.Distributions.Gaussian.Real

/-!
# Property C69: sampled actions are distributed as the log-probability says

* `categorical_distribution_partial`: the probability of every integer action, for uniform random numbers.
* `categorical_close_partial`: at temperature 1 it is the probability in `log_probability`, up to a multiple of 1e-6.
* `bernoulli_distribution_partial`: the same for boolean actions.
* `gaussian_distribution_partial`: float actions before the transformation to the bounds are normally distributed.
* `gaussian_quadratic`: how the log-probability of a sampled float action depends on the random number.
* `beta_centre`: the random numbers at their expected values give the expected action.

Missing: the random numbers of an integer action are uniform in [1e-6, 1 - 1e-6) rather than in [0, 1], actions with probability
below 1e-6 are not sampled, the constant 1e-6 in the densities of float actions, and the distribution of the beta samples.
-/

namespace Verif.Props.Sampling

open Verif.Policy MeasureTheory ProbabilityTheory

/-- Weight of an action with probability `p` at temperature `t`: for `t` near 1 the probability. -/
noncomputable def weight (t p : ℝ) : ℝ := (p + eps) ^ (1 / (t + eps))

/-- Probability of the action `i` with uniform random numbers. -/
noncomputable def chance (c : CategoricalParams ℝ) (t : ℝ) (n i : ℕ) : ENNReal :=
  volume {u : Fin n → ℝ | (∀ k, 0 < u k ∧ u k < 1) ∧ categoricalSample realFns c t (List.ofFn u) = i}

/-- Integer actions are sampled with probabilities proportional to their weights. -/
theorem categorical_distribution_partial (raw : Option ℝ) (mask : Option (List Bool)) (vs ps : List ℝ) (t : ℝ) (ht : eps ≤ t)
    (hps : (categoricalParams realFns raw mask vs).probabilities = ps) (hp : ∀ p ∈ ps, eps ≤ p) (i : Fin ps.length) :
    chance (categoricalParams realFns raw mask vs) t ps.length i =
      ENNReal.ofReal (weight t (ps.get i) / ∑ k, weight t (ps.get k)) := by
  have he : (0 : ℝ) < eps := by unfold eps; norm_num
  let l : Fin ps.length → ℝ := fun k => Real.log (ps.get k + eps) / (t + eps)
  have hw : ∀ k, Real.exp (l k) = weight t (ps.get k) := by
    intro k
    have : 0 < ps.get k + eps := by have := hp _ (List.get_mem ps k); linarith
    show Real.exp (Real.log (ps.get k + eps) / (t + eps)) = (ps.get k + eps) ^ (1 / (t + eps))
    rw [Real.rpow_def_of_pos this, mul_one_div]
  have key : ∀ u : Fin ps.length → ℝ, categoricalSample realFns (categoricalParams realFns raw mask vs) t (List.ofFn u) =
      argmax (List.ofFn fun k => l k + gumbel realFns (u k)) := by
    intro u
    unfold categoricalSample
    rw [if_neg (not_lt.2 ht)]
    congr 1
    have hlog : (categoricalParams realFns raw mask vs).logits = ps.map fun p => Real.log (p + eps) := by
      rw [← hps]; rfl
    apply List.ext_getElem
    · simp [tempLogits, hps, hlog]
    · intro n h1 h2
      have hn : n < ps.length := by simpa using h2
      have hpn := hp ps[n] (List.getElem_mem hn)
      simp only [tempLogits, hps, hlog, List.getElem_zipWith, List.getElem_map, List.getElem_ofFn, if_neg (not_lt.2 hpn)]
      rfl
  unfold chance
  simp only [key]
  rw [volume_argmax l i]
  simp only [hw]

/-- At temperature 1 the probability of an action differs from that in `log_probability` by at most 1e-6 times twice the number of
actions plus 30. -/
theorem categorical_close_partial (raw : Option ℝ) (mask : Option (List Bool)) (vs ps : List ℝ) (hv : vs ≠ [])
    (hm : ∀ m, mask = some m → m.length = vs.length) (hps : (categoricalParams realFns raw mask vs).probabilities = ps)
    (hp : ∀ p ∈ ps, eps ≤ p) (i : Fin ps.length) :
    ∃ x : ℝ, chance (categoricalParams realFns raw mask vs) 1 ps.length i = ENNReal.ofReal x ∧
      |x - ps.get i| ≤ (2 * ps.length + 30) * eps ∧
      categoricalLogProb (categoricalParams realFns raw mask vs) i = some (Real.log (ps.get i + eps)) := by
  obtain ⟨hl, h01, hsum⟩ := Verif.Props.Distribution.probabilities real_laws raw mask vs hv hm
  rw [hps] at hl h01 hsum
  have he : (0 : ℝ) < eps := by unfold eps; norm_num
  refine ⟨_, categorical_distribution_partial raw mask vs ps 1 (by unfold eps; norm_num) hps hp i, ?_, ?_⟩
  · have hb : ∀ k, ps.get k ≤ weight 1 (ps.get k) ∧ weight 1 (ps.get k) ≤ (ps.get k + eps) * Real.exp (14 * eps) :=
      fun k => weight_bounds (h01 _ (List.get_mem ps k)).1 (h01 _ (List.get_mem ps k)).2
    have hs : ∑ k, ps.get k = 1 := by
      rw [← hsum, ← List.sum_ofFn, List.ofFn_get]
    refine weight_ratio (h01 _ (List.get_mem ps i)).1 (h01 _ (List.get_mem ps i)).2 (Nat.cast_nonneg _) (hb i).1 (hb i).2 ?_ ?_
    · exact hs.ge.trans (Finset.sum_le_sum fun k _ => (hb k).1)
    · have : ∑ k : Fin ps.length, (ps.get k + eps) * Real.exp (14 * eps) = (1 + ps.length * eps) * Real.exp (14 * eps) := by
        rw [← Finset.sum_mul, Finset.sum_add_distrib, hs]
        simp
      rw [← this]
      exact Finset.sum_le_sum fun k _ => (hb k).2
  · have hlog : (categoricalParams realFns raw mask vs).logits = ps.map fun p => Real.log (p + eps) := by
      rw [← hps]; rfl
    simp [categoricalLogProb, hlog]

/-- Two equal network outputs: both actions have probability one half, which is above 1e-6. -/
example : (categoricalParams realFns none none [0, 0]).probabilities = [1 / 2, 1 / 2] ∧ ∀ p ∈ [(1 / 2 : ℝ), 1 / 2], eps ≤ p := by
  constructor
  · simp [categoricalParams, softmax, applyMask, maximum, realFns]
    norm_num
  · intro p hp
    have : p = 1 / 2 := by simpa using hp
    rw [this]; unfold eps; norm_num

/-- The random numbers below a threshold give `True`; at temperature 1 the threshold is the probability of `True` up to 40e-6. -/
theorem bernoulli_distribution_partial (logit t : ℝ) (ht : eps ≤ t) :
    let c := bernoulliParams realFns logit
    let x := weight t c.probability / (weight t c.probability + weight t (1 - c.probability) + eps)
    volume {u : ℝ | (0 < u ∧ u < 1) ∧ bernoulliSample realFns c t u = true} = ENNReal.ofReal x ∧
      (t = 1 → |x - c.probability| ≤ 40 * eps ∧ bernoulliLogProb c true = Real.log (c.probability + eps)) := by
  intro c x
  have he : (0 : ℝ) < eps := by unfold eps; norm_num
  have h0 : 0 ≤ c.probability := real_laws.sigmoid_nonneg logit
  have h1 : c.probability ≤ 1 := real_laws.sigmoid_le logit
  have hw : ∀ p : ℝ, 0 ≤ p → 0 < weight t p := fun p hp => Real.rpow_pos_of_pos (by linarith) _
  have hwe : ∀ p : ℝ, 0 ≤ p → Real.exp (Real.log (p + eps) / (t + eps)) = weight t p := by
    intro p hp
    unfold weight
    rw [Real.rpow_def_of_pos (by linarith), mul_one_div]
  have hx0 : 0 < weight t c.probability + weight t (1 - c.probability) + eps := by
    have := hw _ h0; have := hw (1 - c.probability) (by linarith); linarith
  have hx1 : x < 1 := by
    show _ / _ < _
    rw [div_lt_one hx0]
    have := hw (1 - c.probability) (by linarith)
    linarith
  constructor
  · have : {u : ℝ | (0 < u ∧ u < 1) ∧ bernoulliSample realFns c t u = true} = Set.Ioc 0 x := by
      ext u
      have hs : bernoulliSample realFns c t u = true ↔ u ≤ x := by
        unfold bernoulliSample
        rw [if_neg (not_lt.2 ht)]
        have e1 : realFns.exp (c.trueLogit / (t + eps)) = weight t c.probability := hwe _ h0
        have e2 : realFns.exp (c.falseLogit / (t + eps)) = weight t (1 - c.probability) := hwe (1 - c.probability) (by linarith)
        simp only [e1, e2, decide_eq_true_eq]
        rfl
      simp only [Set.mem_ofPred_eq, hs, Set.mem_Ioc]
      constructor
      · exact fun h => ⟨h.1.1, h.2⟩
      · exact fun h => ⟨⟨h.1, h.2.trans_lt hx1⟩, h.2⟩
    rw [this, Real.volume_Ioc, sub_zero]
  · rintro rfl
    refine ⟨?_, rfl⟩
    have b1 := weight_bounds h0 h1
    have b2 := weight_bounds (p := 1 - c.probability) (by linarith) (by linarith)
    have hc1 : 1 ≤ Real.exp (14 * (eps : ℝ)) := Real.one_le_exp (by linarith)
    have := weight_ratio (n := 3) h0 h1 (by norm_num) b1.1 b1.2
      (s := weight 1 c.probability + weight 1 (1 - c.probability) + eps) (by unfold weight; linarith [b1.1, b2.1])
      (by
        have a : (eps : ℝ) * 1 ≤ eps * Real.exp (14 * eps) := mul_le_mul_of_nonneg_left hc1 he.le
        unfold weight
        linarith [b1.2, b2.2])
    refine this.trans ?_
    nlinarith

example : (eps : ℝ) ≤ 1 := by unfold eps; norm_num

/-- Float actions: the number which is transformed to the bounds is normally distributed, with the mean of the distribution and its
standard deviation times the temperature. -/
theorem gaussian_distribution_partial (transform : Option Transform) (lo hi : Option ℝ) (p : GaussianParams ℝ) (t : ℝ) (ht : eps ≤ t) :
    ∃ s : ℝ → ℝ, (∀ z, gaussianSample realFns transform lo hi p t z = bound realFns transform lo hi (s z)) ∧
      (gaussianReal 0 1).map s = gaussianReal p.mean ⟨(p.stddev * t) ^ 2, sq_nonneg _⟩ := by
  refine ⟨fun z => p.mean + p.stddev * t * z, fun z => ?_, ?_⟩
  · unfold gaussianSample
    rw [if_neg (not_lt.2 ht)]
  · have h1 := gaussianReal_map_const_mul (μ := 0) (v := 1) (p.stddev * t)
    have h2 := gaussianReal_map_const_add (μ := p.stddev * t * 0) (v := .mk ((p.stddev * t) ^ 2) (sq_nonneg _) * 1) p.mean
    rw [← h1, Measure.map_map (by fun_prop) (by fun_prop)] at h2
    rw [mul_zero, zero_add, mul_one] at h2
    exact h2

section Field

variable {K : Type} [Field K] [LinearOrder K] [IsStrictOrderedRing K]

/-- The log-probability of a sampled action without bounds falls with the square of the random number, as that of a normal
distribution with the variance used in sampling (but for the constant 1e-6). -/
theorem gaussian_quadratic (f : Fns K) (h : K) (p : GaussianParams K) (t z : K) (ht : eps ≤ t) :
    gaussianLogProb f h none none none p (gaussianSample f none none none p t z) =
      gaussianLogProb f h none none none p p.mean - 1 / 2 * z ^ 2 * ((p.stddev * t) ^ 2 / (p.stddev ^ 2 + eps)) := by
  unfold gaussianSample
  rw [if_neg (not_lt.2 ht)]
  simp only [gaussianLogProb, unbound, bound]
  ring

/-- Gamma random numbers at their expected values give the deterministic action. -/
theorem beta_centre (lo hi t : K) (p : BetaParams K) (hp : p.alphaBeta = p.alpha + p.beta) :
    betaSample lo hi p t p.alpha p.beta = betaMode lo hi p := by
  unfold betaSample betaMode
  rw [hp]
  split <;> rfl

example (f : Fns K) (x y : K) : (betaParams f x y).alphaBeta = (betaParams f x y).alpha + (betaParams f x y).beta := rfl

end Field

end Verif.Props.Sampling
