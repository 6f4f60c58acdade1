import Verif.Policy.Discrete
import Verif.Policy.Bounded
import Verif.Policy.Rational

/-!
# Properties C57 and C58: probabilities, entropy and divergence

* C57: the probabilities of a discrete action form a distribution, masked values are practically
  impossible, and the deterministic action is the most probable one.
* C58: the divergence of two distributions is not negative and zero for equal ones, the entropy of
  a discrete action lies between zero and the logarithm of the number of values.
-/

namespace Verif.Props.Distribution

open Verif.Policy

variable {K : Type} [Field K] [LinearOrder K] [IsStrictOrderedRing K]

/-! ### C57 -/

/-- The probabilities of an integer action are not negative and add up to one. -/
theorem probabilities {f : Fns K} (hf : Laws f) (raw : Option K) (mask : Option (List Bool))
    (vs : List K) (hv : vs ≠ []) (hm : ∀ m, mask = some m → m.length = vs.length) :
    let ps := (categoricalParams f raw mask vs).probabilities
    ps.length = vs.length ∧ (∀ p ∈ ps, 0 ≤ p ∧ p ≤ 1) ∧ ps.sum = 1 := by
  intro ps
  have hl : (applyMask mask (rawLogits f raw vs)).length = vs.length := by
    rw [masked_length, rawLogits_length]
    rw [rawLogits_length]
    exact hm
  have hne : applyMask mask (rawLogits f raw vs) ≠ [] := by
    intro h
    rw [h] at hl
    exact hv (List.length_eq_zero_iff.1 hl.symm)
  refine ⟨params_length f raw mask vs hm, fun p hp => ?_, ?_⟩
  · have hp' : p ∈ (categoricalParams f raw mask vs).probabilities := hp
    rw [params_probabilities] at hp'
    exact ⟨softmax_nonneg hf _ p hp', softmax_le_one hf _ hne p hp'⟩
  · show (categoricalParams f raw mask vs).probabilities.sum = 1
    rw [params_probabilities]
    exact softmax_sum hf _ hne

/-- A masked value has a probability below `eps`.  Missing: network outputs near the least float. -/
theorem masked_partial {f : Fns K} (hf : Laws f) (raw : Option K) (m : List Bool)
    (vs : List K) (hl : m.length = vs.length) (hm : true ∈ m) (hv : ∀ v ∈ vs, -(10 ^ 30) ≤ v)
    (i : Nat) (p : K) (hi : m[i]? = some false)
    (hp : (categoricalParams f raw (some m) vs).probabilities[i]? = some p) : p < eps :=
  masked_probability hf raw m vs hl hm hv hi hp

/-- The deterministic integer action is one of the most probable ones, and the most probable one
in the sense of `log_probability` too.  Missing: masks together with network outputs near the least
float. -/
theorem mode_partial {f : Fns K} (hf : Laws f) (raw : Option K) (mask : Option (List Bool))
    (vs : List K) (hne : vs ≠ []) (hm : ∀ m, mask = some m → m.length = vs.length)
    (hv : mask.isSome → ∀ v ∈ vs, -(10 ^ 30) ≤ v) :
    let c := categoricalParams f raw mask vs
    ∃ p, c.probabilities[categoricalMode c]? = some p ∧
      categoricalLogProb c (categoricalMode c) = some (f.log (p + eps)) ∧
      ∀ (i : Nat) q, c.probabilities[i]? = some q →
        q ≤ p ∧ categoricalLogProb c i = some (f.log (q + eps)) ∧
          f.log (q + eps) ≤ f.log (p + eps) := by
  intro c
  obtain ⟨b, hb, hmax⟩ := mode_logit hf raw mask vs hne hm hv
  have hmode : categoricalMode c = argmax (applyMask mask vs) := by
    show argmax (categoricalParams f raw mask vs).actionValues = _
    rw [params_actionValues]
  have hprob : c.probabilities = softmax f (applyMask mask (rawLogits f raw vs)) :=
    params_probabilities f raw mask vs
  have hlog : ∀ (i : Nat) q, c.probabilities[i]? = some q →
      categoricalLogProb c i = some (f.log (q + eps)) := by
    intro i q hq
    show (categoricalParams f raw mask vs).logits[i]? = _
    rw [params_logits, List.getElem?_map]
    show Option.map _ c.probabilities[i]? = _
    rw [hq, Option.map_some]
  have hp := softmax_getElem f _ _ hb
  rw [← hprob, ← hmode] at hp
  refine ⟨_, hp, hlog _ _ hp, fun i q hq => ?_⟩
  have hqp : q ≤ f.exp (b - maximum (applyMask mask (rawLogits f raw vs))) /
      (exps f (applyMask mask (rawLogits f raw vs))).sum := by
    have hq' := hq
    rw [hprob] at hq'
    have hil : i < (applyMask mask (rawLogits f raw vs)).length := by
      have := (List.getElem?_eq_some_iff.1 hq').1
      rwa [softmax_length] at this
    rw [hmode, hprob] at hp
    exact softmax_mono hf _ (List.getElem?_eq_getElem hil) hb
      (hmax _ (List.getElem_mem hil)) hq' hp
  have hq0 : 0 ≤ q := by
    refine softmax_nonneg hf (applyMask mask (rawLogits f raw vs)) q ?_
    rw [← hprob]
    exact List.mem_of_getElem? hq
  exact ⟨hqp, hlog i q hq, hf.log_mono _ _ (by linarith [eps_pos (K := K)]) (by linarith)⟩

example : (categoricalParams stepFns none (some [false, true, true]) [5, 1, 1]).probabilities =
    [0, 1 / 2, 1 / 2] := by decide +kernel

example : categoricalMode (categoricalParams stepFns (some 3) (some [false, true, true]) [5, 1, 2])
    = 2 := by decide +kernel

/-- The probability of a boolean action lies between zero and one, and the deterministic action is
the more probable one. -/
theorem bernoulli {f : Fns K} (hf : Laws f) (logit : K) :
    let c := bernoulliParams f logit
    let prob := fun b => if b = true then c.probability else 1 - c.probability
    (∀ b, 0 ≤ prob b ∧ prob b ≤ 1 ∧ bernoulliLogProb c b = f.log (prob b + eps)) ∧
      ∀ b, prob b ≤ prob (bernoulliMode c) ∧
        bernoulliLogProb c b ≤ bernoulliLogProb c (bernoulliMode c) := by
  intro c prob
  have h0 : 0 ≤ c.probability := hf.sigmoid_nonneg logit
  have h1 : c.probability ≤ 1 := hf.sigmoid_le logit
  have he := eps_pos (K := K)
  have hlog : ∀ b, bernoulliLogProb c b = f.log (prob b + eps) := by
    intro b
    cases b <;> rfl
  have hpos : ∀ b, 0 ≤ prob b := by
    intro b
    cases b
    · show 0 ≤ 1 - c.probability
      linarith
    · exact h0
  refine ⟨fun b => ⟨hpos b, ?_, hlog b⟩, fun b => ?_⟩
  · cases b
    · show 1 - c.probability ≤ 1
      linarith
    · exact h1
  · have hle : prob b ≤ prob (bernoulliMode c) := by
      by_cases h : 1 / 2 ≤ c.probability
      · have e : bernoulliMode c = true := decide_eq_true h
        rw [e]
        cases b
        · show 1 - c.probability ≤ c.probability
          linarith
        · exact le_refl _
      · have e : bernoulliMode c = false := decide_eq_false h
        rw [e]
        have h := not_le.1 h
        cases b
        · exact le_refl _
        · show c.probability ≤ 1 - c.probability
          linarith
    rw [hlog, hlog]
    exact ⟨hle, hf.log_mono _ _ (by linarith [hpos b]) (by linarith)⟩

example : bernoulliMode (bernoulliParams stepFns 2) = true ∧
    bernoulliMode (bernoulliParams stepFns (-2)) = false := by decide +kernel

/-! ### C58 -/

/-- The divergence of a distribution from itself is zero for boolean and integer actions and for
the beta distribution.  Missing: the Gaussian, see `gaussian_violation`. -/
theorem kl_self_partial (f : Fns K) (b : BernoulliParams K) (c : CategoricalParams K)
    (e : BetaParams K) : bernoulliKl b b = 0 ∧ categoricalKl c c = 0 ∧ betaKl f e e = 0 := by
  refine ⟨by unfold bernoulliKl; ring, ?_, by unfold betaKl; ring⟩
  unfold categoricalKl
  have h : List.zipWith (· - ·) c.logits c.logits = c.logits.map fun _ => (0 : K) := by
    have := zipWith_self_map (fun x y : K => x - y) id c.logits
    rw [List.map_id] at this
    rw [this]
    exact List.map_congr_left fun x _ => by simp
  rw [h]
  have h2 : ∀ ps ls : List K, (List.zipWith (· * ·) ps (ls.map fun _ => (0 : K))).sum = 0 := by
    intro ps
    induction ps with
    | nil => intro ls; simp
    | cons p ps ih =>
      intro ls
      cases ls with
      | nil => simp
      | cons l ls =>
        rw [List.map_cons, List.zipWith_cons_cons, List.sum_cons, ih]
        ring
  exact h2 _ _

/-- The divergence of a Gaussian from itself is negative. -/
theorem gaussian_violation (p : GaussianParams K) :
    gaussianKl p p = -(eps / (2 * (p.stddev ^ 2 + eps))) ∧ gaussianKl p p < 0 := by
  have he := eps_pos (K := K)
  have h : 0 < p.stddev ^ 2 + eps := by positivity
  have e : gaussianKl p p = -(eps / (2 * (p.stddev ^ 2 + eps))) := by
    unfold gaussianKl
    have h' := ne_of_gt h
    field_simp
    ring
  refine ⟨e, ?_⟩
  rw [e]
  have : 0 < eps / (2 * (p.stddev ^ 2 + eps)) := by positivity
  linarith

/-- The entropy of an integer action is at least `-eps`.  Missing: it can be negative, see
`entropy_violation`. -/
theorem entropy_partial {f : Fns K} (hf : Laws f) (raw : Option K) (mask : Option (List Bool))
    (vs : List K) (hv : vs ≠ []) (hm : ∀ m, mask = some m → m.length = vs.length) :
    -eps ≤ categoricalEntropy (categoricalParams f raw mask vs) := by
  obtain ⟨-, h1, h2⟩ := probabilities hf raw mask vs hv hm
  rw [categoricalEntropy_eq]
  have he := eps_pos (K := K)
  have h3 := sum_map_le (fun p => p * f.log (p + eps)) (fun p => eps * p + 0)
    (categoricalParams f raw mask vs).probabilities (by
      intro p hp
      obtain ⟨h4, h5⟩ := h1 p hp
      have h6 := mul_le_mul_of_nonneg_left (hf.log_le (p + eps) (by linarith)) h4
      have h7 := mul_le_mul_of_nonneg_left h5 h4
      linarith)
  rw [sum_map_linear, h2] at h3
  linarith

/-- Likewise for a boolean action. -/
theorem bernoulli_entropy_partial {f : Fns K} (hf : Laws f) (logit : K) :
    -eps ≤ bernoulliEntropy (bernoulliParams f logit) := by
  have h0 : 0 ≤ f.sigmoid logit := hf.sigmoid_nonneg logit
  have h1 : f.sigmoid logit ≤ 1 := hf.sigmoid_le logit
  have he := eps_pos (K := K)
  have h2 := mul_le_mul_of_nonneg_left (hf.log_le (f.sigmoid logit + eps) (by linarith)) h0
  have h3 := mul_le_mul_of_nonneg_left (hf.log_le (1 - f.sigmoid logit + eps) (by linarith))
    (by linarith : 0 ≤ 1 - f.sigmoid logit)
  have h4 := mul_nonneg h0 (by linarith : 0 ≤ 1 - f.sigmoid logit)
  simp only [bernoulliEntropy, bernoulliParams]
  linarith

/-- The entropy of an integer action is at most the logarithm of the number of values. -/
theorem entropy_at_most (raw : Option ℝ) (mask : Option (List Bool)) (vs : List ℝ) (hv : vs ≠ [])
    (hm : ∀ m, mask = some m → m.length = vs.length) :
    categoricalEntropy (categoricalParams realFns raw mask vs) ≤ Real.log vs.length := by
  obtain ⟨hl, h1, h2⟩ := probabilities real_laws raw mask vs hv hm
  rw [categoricalEntropy_eq]
  have hn : (0 : ℝ) < vs.length := by
    have : 0 < vs.length := List.length_pos_iff.2 hv
    exact_mod_cast this
  have h3 := sum_map_le (fun p => -((Real.log vs.length - 1) * p + 1 / vs.length))
    (fun p => p * realFns.log (p + eps)) (categoricalParams realFns raw mask vs).probabilities (by
      intro p hp
      have := entropy_term (h1 p hp).1 hn
      dsimp only [realFns]
      linarith)
  have h4 : ((categoricalParams realFns raw mask vs).probabilities.map fun p =>
      -((Real.log vs.length - 1) * p + 1 / vs.length)).sum =
      -(Real.log vs.length - 1) * 1 + -(1 / vs.length) * vs.length := by
    rw [← h2, ← hl, ← sum_map_linear, hl]
    congr 1
    exact List.map_congr_left fun x _ => by ring
  rw [h4] at h3
  have h5 : (1 : ℝ) / vs.length * vs.length = 1 := div_mul_cancel₀ 1 (ne_of_gt hn)
  linarith

/-- Likewise for a boolean action. -/
theorem bernoulli_entropy_at_most (logit : ℝ) :
    bernoulliEntropy (bernoulliParams realFns logit) ≤ Real.log 2 := by
  have h0 := real_laws.sigmoid_nonneg logit
  have h1 := real_laws.sigmoid_le logit
  have h2 := entropy_term h0 two_pos
  have h3 := entropy_term (by linarith : 0 ≤ 1 - realFns.sigmoid logit) two_pos
  simp only [bernoulliEntropy, bernoulliParams]
  have e1 : ∀ x, realFns.log x = Real.log x := fun _ => rfl
  rw [e1, e1]
  linarith

/-- The entropy of an integer action with one value is negative. -/
theorem entropy_violation (v : ℝ) :
    categoricalEntropy (categoricalParams realFns none none [v]) < 0 := by
  have h : (categoricalParams realFns none none [v]).probabilities = [1] := by
    simp [categoricalParams, softmax, applyMask, maximum, realFns]
  rw [categoricalEntropy_eq, h]
  have := Real.log_pos (by linarith [eps_pos (K := ℝ)] : (1 : ℝ) < 1 + eps)
  simp only [List.map_cons, List.map_nil, List.sum_cons, List.sum_nil, realFns]
  linarith

/-- The divergence of two integer distributions is at least `-eps` for each value.  Missing: exactly
zero as lower bound. -/
theorem kl_partial (raw raw' : Option ℝ) (mask mask' : Option (List Bool)) (vs vs' : List ℝ)
    (hv : vs ≠ []) (hl : vs.length = vs'.length)
    (hm : ∀ m, mask = some m → m.length = vs.length)
    (hm' : ∀ m, mask' = some m → m.length = vs'.length) :
    -(vs.length * eps) ≤ categoricalKl (categoricalParams realFns raw mask vs)
      (categoricalParams realFns raw' mask' vs') := by
  obtain ⟨h1, h2, h3⟩ := probabilities real_laws raw mask vs hv hm
  obtain ⟨h4, h5, h6⟩ := probabilities real_laws raw' mask' vs'
    (by rintro rfl; exact hv (List.length_eq_zero_iff.1 hl)) hm'
  have := log_sum _ _ (h1.trans (hl.trans h4.symm)) (fun p hp => (h2 p hp).1)
    (fun p hp => (h5 p hp).1)
  rw [h3, h6, h1] at this
  unfold categoricalKl
  rw [params_logits, params_logits]
  have e1 : ∀ x, realFns.log x = Real.log x := fun _ => rfl
  simp only [e1]
  linarith

/-- Likewise for boolean actions. -/
theorem bernoulli_kl_partial (logit logit' : ℝ) :
    -(2 * eps) ≤ bernoulliKl (bernoulliParams realFns logit) (bernoulliParams realFns logit') := by
  have h0 := real_laws.sigmoid_nonneg logit
  have h1 := real_laws.sigmoid_le logit
  have h0' := real_laws.sigmoid_nonneg logit'
  have h1' := real_laws.sigmoid_le logit'
  have h2 := log_term h0 h0'
  have h3 := log_term (by linarith : 0 ≤ 1 - realFns.sigmoid logit)
    (by linarith : 0 ≤ 1 - realFns.sigmoid logit')
  simp only [bernoulliKl, bernoulliParams]
  have e1 : ∀ x, realFns.log x = Real.log x := fun _ => rfl
  simp only [e1]
  linarith

/-- The divergence of two Gaussians is at least a multiple of `-eps`. -/
theorem gaussian_kl_partial (lo hi lo' hi' : Option ℝ) (x y x' y' : ℝ) :
    let p := gaussianParams realFns lo hi x y
    let q := gaussianParams realFns lo' hi' x' y';
    -(eps / 2 * (p.stddev ^ 2 / q.stddev ^ 4 + (2 * p.stddev + eps) / q.stddev ^ 2)) ≤
      gaussianKl p q := by
  intro p q
  exact gaussian_bound (gaussian_stddev_pos real_laws lo hi x y)
    (gaussian_stddev_pos real_laws lo' hi' x' y')

end Verif.Props.Distribution
