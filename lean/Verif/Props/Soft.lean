import Verif.Policy.Soft
import Verif.Policy.Real
import Verif.Policy.Categorical

/-!
# Property C70: action values, state values and log-probabilities of a distribution agree

The difference of action value and state value is the temperature of the distribution times the log-probability.

* `bernoulli_soft`: for boolean actions.
* `categorical_soft_partial`, `soft_maximum_partial`: for integer actions without mask, up to the constant 1e-6 in the
  log-probability; the state value is a soft maximum of the action values. With a mask neither holds (`mask_violation`).
* `gaussian_soft_partial`: for float actions without `tanh`; with it not (`tanh_violation`).
-/

namespace Verif.Props.Soft

open Verif.Policy

section Field

variable {K : Type} [Field K] [LinearOrder K] [IsStrictOrderedRing K]

/-- Boolean actions. -/
theorem bernoulli_soft (p : BernoulliParams K) (action : Bool) :
    bernoulliActionValue p action - p.stateValue = bernoulliLogProb p action := by
  unfold bernoulliActionValue bernoulliLogProb
  ring

/-- Float actions, unbounded or clipped. -/
theorem gaussian_soft_partial (f : Fns K) (h : K) (transform : Option Transform) (ht : transform ≠ some .tanh) (lo hi : Option K)
    (p : GaussianParams K) (action : K) :
    gaussianActionValue f (2 * h) transform lo hi p action - gaussianStateValue h p = gaussianLogProb f h transform lo hi p action := by
  unfold gaussianActionValue gaussianStateValue gaussianLogProb
  cases transform with
  | none => dsimp only; ring
  | some t => cases t with
    | clipping => dsimp only; ring
    | tanh => exact absurd rfl ht

example : (some Transform.clipping) ≠ some .tanh := by decide

end Field

/-- With `tanh` the logarithm of its derivative is missing in the action value. -/
theorem tanh_violation (h : ℝ) (lo hi : Option ℝ) (p : GaussianParams ℝ) (action : ℝ) :
    gaussianActionValue realFns (2 * h) (some .tanh) lo hi p action - gaussianStateValue h p -
        gaussianLogProb realFns h (some .tanh) lo hi p action =
      Real.log (1 - Real.tanh (unbound realFns (some .tanh) lo hi action) ^ 2) := by
  rw [log_one_sub_tanh_sq]
  simp only [gaussianActionValue, gaussianStateValue, gaussianLogProb]
  show _ = 2 * (Real.log 2 - unbound realFns (some .tanh) lo hi action -
    Real.log (1 + Real.exp (-2 * unbound realFns (some .tanh) lo hi action)))
  simp only [realFns]
  ring

/-- The probability of an integer action is the exponential of the difference of action value and state value, divided by the
temperature. -/
theorem categorical_soft_partial (raw : Option ℝ) (vs : List ℝ) (hv : vs ≠ []) (i : ℕ) (v : ℝ) (hi : vs[i]? = some v) :
    let c := categoricalParams realFns raw none vs
    let p := Real.exp ((v - c.stateValue) / c.temperature)
    0 < c.temperature ∧ categoricalActionValue c i = some v ∧ v - c.stateValue = c.temperature * Real.log p ∧
      categoricalLogProb c i = some (Real.log (p + eps)) := by
  intro c p
  have ht : 0 < c.temperature := by
    cases raw with
    | none => exact one_pos
    | some x =>
      refine div_pos ?_ ?_
      · have := real_laws.softplus_nonneg (clip x (realFns.log eps) (-realFns.log eps))
        linarith
      · have : 0 < Real.log 2 := Real.log_pos (by norm_num)
        show 0 < Real.log 2 + 1 / 5
        linarith
  have hl : (rawLogits realFns raw vs)[i]? = some (v / c.temperature) := by
    cases raw with
    | none => show vs[i]? = some (v / 1); rw [div_one]; exact hi
    | some x => simp only [rawLogits, List.getElem?_map, hi]; rfl
  have hs : c.stateValue = c.temperature * logsumexp realFns (rawLogits realFns raw vs) := by
    cases raw with
    | none => exact (one_mul _).symm
    | some x => rfl
  have hpos : 0 < (exps realFns (rawLogits realFns raw vs)).sum := by
    refine lt_of_lt_of_le one_pos (one_le_exps real_laws _ ?_)
    intro h
    rw [h] at hl
    cases hl
  have hp : c.probabilities[i]? = some p := by
    rw [show c.probabilities = softmax realFns (rawLogits realFns raw vs) from params_probabilities realFns raw none vs,
      softmax_getElem realFns _ i hl]
    congr 1
    show Real.exp _ / _ = Real.exp _
    have e : (v - c.stateValue) / c.temperature = (v / c.temperature - maximum (rawLogits realFns raw vs)) -
        Real.log (exps realFns (rawLogits realFns raw vs)).sum := by
      rw [hs]
      show (v - c.temperature * (_ + Real.log (exps realFns (rawLogits realFns raw vs)).sum)) / _ = _
      field_simp
      ring
    rw [e, Real.exp_sub (_ - _), Real.exp_log hpos]
  refine ⟨ht, ?_, ?_, ?_⟩
  · show (categoricalParams realFns raw none vs).actionValues[i]? = _
    rw [params_actionValues]
    exact hi
  · rw [Real.log_exp]
    field_simp
  · show (categoricalParams realFns raw none vs).logits[i]? = _
    rw [params_logits, List.getElem?_map]
    show Option.map _ c.probabilities[i]? = _
    rw [hp]
    rfl

example : ([1, 2] : List ℝ)[1]? = some 2 := rfl

/-- The state value is at least every action value, and at most one of them plus temperature times the logarithm of their number. -/
theorem soft_maximum_partial (raw : Option ℝ) (vs : List ℝ) (hv : vs ≠ []) :
    let c := categoricalParams realFns raw none vs
    (∀ v ∈ vs, v ≤ c.stateValue) ∧ ∃ v ∈ vs, c.stateValue ≤ v + c.temperature * Real.log vs.length := by
  intro c
  have hlen : 0 < vs.length := List.length_pos_iff.2 hv
  obtain ⟨ht, -⟩ := categorical_soft_partial raw vs hv 0 _ (List.getElem?_eq_getElem hlen)
  have hs : c.stateValue = c.temperature * logsumexp realFns (rawLogits realFns raw vs) := by
    cases raw with
    | none => exact (one_mul _).symm
    | some x => rfl
  have hll : (rawLogits realFns raw vs).length = vs.length := rawLogits_length _ _ _
  have hne : rawLogits realFns raw vs ≠ [] := List.length_pos_iff.1 (by rw [hll]; exact hlen)
  have h1 := one_le_exps real_laws _ hne
  have h2 := exps_sum_le real_laws (rawLogits realFns raw vs)
  rw [hll] at h2
  have hsum : logsumexp realFns (rawLogits realFns raw vs) =
      maximum (rawLogits realFns raw vs) + Real.log (exps realFns (rawLogits realFns raw vs)).sum := rfl
  have hmem : ∀ l, l ∈ rawLogits realFns raw vs ↔ ∃ v ∈ vs, v / c.temperature = l := by
    intro l
    cases raw with
    | none =>
      show l ∈ vs ↔ ∃ v ∈ vs, v / 1 = l
      simp
    | some x => exact List.mem_map
  constructor
  · intro v hvm
    have h3 := le_maximum _ _ ((hmem _).2 ⟨v, hvm, rfl⟩)
    have h4 : 0 ≤ Real.log (exps realFns (rawLogits realFns raw vs)).sum := Real.log_nonneg h1
    rw [hs, hsum]
    have h5 : c.temperature * (v / c.temperature) = v := mul_div_cancel₀ v (ne_of_gt ht)
    have h6 := mul_le_mul_of_nonneg_left h3 ht.le
    have h7 := mul_nonneg ht.le h4
    rw [mul_add]
    change 0 ≤ c.temperature * _ at h7
    change c.temperature * (v / c.temperature) ≤ _ at h6
    linarith
  · obtain ⟨v, hvm, hve⟩ := (hmem _).1 (maximum_mem _ hne)
    refine ⟨v, hvm, ?_⟩
    have h4 : Real.log (exps realFns (rawLogits realFns raw vs)).sum ≤ Real.log vs.length :=
      Real.log_le_log (by linarith) h2
    have h5 : c.temperature * (v / c.temperature) = v := mul_div_cancel₀ v (ne_of_gt ht)
    have h6 := mul_le_mul_of_nonneg_left h4 ht.le
    change c.temperature * _ ≤ c.temperature * _ at h6
    rw [hs, hsum, ← hve, mul_add, h5]
    linarith

/-- With a mask the state value still counts the masked actions: of two actions with value zero, the only allowed one has
probability one and value zero, but the state value is the logarithm of two. -/
theorem mask_violation :
    let c := categoricalParams realFns none (some [true, false]) [0, 0]
    categoricalActionValue c 0 = some 0 ∧ c.temperature = 1 ∧ c.stateValue = Real.log 2 ∧
      ∀ p, c.probabilities[0]? = some p → 0 - c.stateValue < c.temperature * Real.log p := by
  intro c
  have hs : c.stateValue = Real.log 2 := by
    show maximum [(0 : ℝ), 0] + Real.log _ = _
    simp [maximum, realFns]
    norm_num
  refine ⟨rfl, rfl, hs, ?_⟩
  intro p hp
  have h1 : p = Real.exp (0 - maximum [(0 : ℝ), floatMin]) / (exps realFns [0, floatMin]).sum := by
    have := softmax_getElem realFns [(0 : ℝ), floatMin] 0 (x := 0) rfl
    rw [show c.probabilities = softmax realFns [(0 : ℝ), floatMin] from rfl, this] at hp
    exact (Option.some.inj hp).symm
  have hneg : (floatMin : ℝ) < 0 := by unfold floatMin; norm_num
  have hm : maximum [(0 : ℝ), floatMin] = 0 := by simp [maximum, hneg.le]
  have he : (exps realFns [(0 : ℝ), floatMin]).sum = 1 + Real.exp floatMin := by
    simp [exps, hm, realFns]
  have h2 : Real.exp (floatMin : ℝ) < 1 := by rw [Real.exp_lt_one_iff]; exact hneg
  rw [h1, hm, he, hs, sub_zero, Real.exp_zero, one_div, Real.log_inv]
  show 0 - Real.log 2 < 1 * -Real.log _
  have h3 : Real.log (1 + Real.exp (floatMin : ℝ)) < Real.log 2 := Real.log_lt_log (by positivity) (by linarith)
  linarith

end Verif.Props.Soft
