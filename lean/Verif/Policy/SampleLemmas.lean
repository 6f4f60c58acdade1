import Verif.Policy.Race
import Verif.Policy.Real
import Verif.Policy.Categorical

/-! # Lemmas about the distribution of samples -/

namespace Verif.Policy

open MeasureTheory

/-- Greater Gumbel numbers are won races. -/
theorem race_lt {a b u v : ℝ} (hu : 0 < u ∧ u < 1) (hv : 0 < v ∧ v < 1) :
    b + gumbel realFns v < a + gumbel realFns u ↔ v < u ^ (Real.exp b / Real.exp a) := by
  have hlu : 0 < -Real.log u := neg_pos.2 (Real.log_neg hu.1 hu.2)
  have hlv : 0 < -Real.log v := neg_pos.2 (Real.log_neg hv.1 hv.2)
  have e1 : ∀ (a u : ℝ), 0 < -Real.log u → Real.exp (a + gumbel realFns u) = Real.exp a / (-Real.log u) := by
    intro a u h
    show Real.exp (a + -Real.log (-Real.log u)) = _
    rw [Real.exp_add, Real.exp_neg, Real.exp_log h, div_eq_mul_inv]
  rw [← Real.exp_lt_exp, e1 b v hlv, e1 a u hlu, div_lt_div_iff₀ hlv hlu, ← Real.log_lt_log_iff hv.1 (Real.rpow_pos_of_pos hu.1 _),
    Real.log_rpow hu.1, div_mul_eq_mul_div, lt_div_iff₀ (Real.exp_pos a)]
  constructor <;> intro h <;> nlinarith

theorem race_le {a b u v : ℝ} (hu : 0 < u ∧ u < 1) (hv : 0 < v ∧ v < 1) :
    b + gumbel realFns v ≤ a + gumbel realFns u ↔ v ≤ u ^ (Real.exp b / Real.exp a) := by
  have hlu : 0 < -Real.log u := neg_pos.2 (Real.log_neg hu.1 hu.2)
  have hlv : 0 < -Real.log v := neg_pos.2 (Real.log_neg hv.1 hv.2)
  have e1 : ∀ (a u : ℝ), 0 < -Real.log u → Real.exp (a + gumbel realFns u) = Real.exp a / (-Real.log u) := by
    intro a u h
    show Real.exp (a + -Real.log (-Real.log u)) = _
    rw [Real.exp_add, Real.exp_neg, Real.exp_log h, div_eq_mul_inv]
  rw [← Real.exp_le_exp, e1 b v hlv, e1 a u hlu, div_le_div_iff₀ hlv hlu, ← Real.log_le_log_iff hv.1 (Real.rpow_pos_of_pos hu.1 _),
    Real.log_rpow hu.1, div_mul_eq_mul_div, le_div_iff₀ (Real.exp_pos a)]
  constructor <;> intro h <;> nlinarith

/-- Probability that the greatest of logits with Gumbel noise is at position `i`. -/
theorem volume_argmax {n : ℕ} (l : Fin n → ℝ) (i : Fin n) :
    volume {u : Fin n → ℝ | (∀ k, 0 < u k ∧ u k < 1) ∧ argmax (List.ofFn fun k => l k + gumbel realFns (u k)) = i} =
      ENNReal.ofReal (Real.exp (l i) / ∑ k, Real.exp (l k)) := by
  have hw : ∀ k, 0 < Real.exp (l k) := fun k => Real.exp_pos _
  have hne : ∀ u : Fin n → ℝ, (List.ofFn fun k => l k + gumbel realFns (u k)) ≠ [] := by
    intro u h
    have := congrArg List.length h
    rw [List.length_ofFn, List.length_nil] at this
    exact absurd i.2 (by omega)
  apply le_antisymm
  · rw [← volume_holds _ hw i]
    refine measure_mono fun u hu => ⟨hu.1, fun j _ => ?_⟩
    refine (race_le (hu.1 i) (hu.1 j)).1 ?_
    have hb : (List.ofFn fun k => l k + gumbel realFns (u k))[argmax (List.ofFn fun k => l k + gumbel realFns (u k))]? =
        some (l i + gumbel realFns (u i)) := by
      rw [hu.2]
      simp
    exact argmax_ge _ (hne u) hb _ (List.mem_ofFn.2 ⟨j, rfl⟩)
  · rw [← volume_wins _ hw i]
    refine measure_mono fun u hu => ⟨hu.1, ?_⟩
    obtain ⟨h1, b, h2, h3, -⟩ := argmax_spec _ (hne u)
    rw [List.length_ofFn] at h1
    by_contra hcon
    have hj : (⟨_, h1⟩ : Fin n) ≠ i := fun h => hcon (by rw [← h])
    have h4 := hu.2 _ hj
    have h5 := (race_lt (hu.1 i) (hu.1 _)).2 h4
    have h6 : b = l ⟨_, h1⟩ + gumbel realFns (u ⟨_, h1⟩) := by
      rw [List.getElem?_ofFn, dif_pos h1] at h2
      exact (Option.some.inj h2).symm
    have h7 := h3 _ (List.mem_ofFn.2 ⟨i, rfl⟩)
    rw [h6] at h7
    exact absurd h5 (not_lt.2 h7)

/-- Weights of probabilities at temperature 1. -/
theorem weight_bounds {p : ℝ} (h0 : 0 ≤ p) (h1 : p ≤ 1) :
    p ≤ (p + eps) ^ (1 / (1 + eps : ℝ)) ∧ (p + eps) ^ (1 / (1 + eps : ℝ)) ≤ (p + eps) * Real.exp (14 * eps) := by
  have he : (0 : ℝ) < eps := by unfold eps; norm_num
  have hx : 0 < p + eps := by linarith
  have hr0 : 0 < 1 / (1 + eps : ℝ) := by positivity
  have hr1 : 1 / (1 + eps : ℝ) ≤ 1 := by rw [div_le_one (by linarith)]; linarith
  constructor
  · by_cases h : p + eps ≤ 1
    · have := Real.rpow_le_rpow_of_exponent_ge hx h hr1
      rw [Real.rpow_one] at this
      linarith
    · exact h1.trans (Real.one_le_rpow (not_le.1 h).le hr0.le)
  · have hlog : -14 ≤ Real.log (p + eps) := real_laws.log_eps.trans (Real.log_le_log he (by linarith))
    rw [Real.rpow_def_of_pos hx]
    have : (p + eps) * Real.exp (14 * eps) = Real.exp (Real.log (p + eps) + 14 * eps) := by
      rw [Real.exp_add, Real.exp_log hx]
    rw [this, Real.exp_le_exp]
    have e : Real.log (p + eps) * (1 / (1 + eps)) = Real.log (p + eps) - Real.log (p + eps) * (eps / (1 + eps)) := by
      field_simp
      ring
    rw [e]
    have h2 : -(Real.log (p + eps)) * (eps / (1 + eps)) ≤ 14 * eps := by
      have h3 : eps / (1 + eps : ℝ) ≤ eps := div_le_self he.le (by linarith)
      have h4 : 0 ≤ eps / (1 + eps : ℝ) := by positivity
      nlinarith
    linarith

theorem exp_small_bound : Real.exp (14 * (eps : ℝ)) ≤ 1 + 15 * eps := by
  have h := Real.abs_exp_sub_one_sub_id_le (x := 14 * (eps : ℝ)) (by unfold eps; norm_num [abs_le])
  have h2 := (abs_le.1 h).2
  have h3 : (14 * (eps : ℝ)) ^ 2 ≤ eps := by unfold eps; norm_num
  linarith

/-- Bound of normalised weights. -/
theorem weight_ratio {w s p n : ℝ} (h0 : 0 ≤ p) (h1 : p ≤ 1) (hn : 0 ≤ n) (hwp : p ≤ w) (hw : w ≤ (p + eps) * Real.exp (14 * eps))
    (hs : 1 ≤ s) (hs2 : s ≤ (1 + n * eps) * Real.exp (14 * eps)) : |w / s - p| ≤ (2 * n + 30) * eps := by
  have hc := exp_small_bound
  have hc1 : 1 ≤ Real.exp (14 * (eps : ℝ)) := Real.one_le_exp (by unfold eps; norm_num)
  generalize Real.exp (14 * (eps : ℝ)) = c at *
  have he : (0 : ℝ) < eps := by unfold eps; norm_num
  have he2 : (30 : ℝ) * eps ≤ 1 := by unfold eps; norm_num
  have hs0 : 0 < s := by linarith
  rw [abs_le]
  constructor
  · -- p - w / s ≤ …
    have hk : p * s - w ≤ (2 * n + 30) * eps := by
      have a1 : p * s ≤ p * ((1 + n * eps) * c) := mul_le_mul_of_nonneg_left hs2 h0
      have a2 : (1 + n * eps) * c ≤ (1 + n * eps) * (1 + 15 * eps) := mul_le_mul_of_nonneg_left hc (by positivity)
      have a3 : (1 + n * eps) * (1 + 15 * eps) ≤ 1 + (2 * n + 30) * eps := by
        have : n * eps * (15 * eps) ≤ n * eps * 1 := mul_le_mul_of_nonneg_left (by linarith) (by positivity)
        nlinarith
      have a4 : p * ((1 + n * eps) * c) ≤ p * (1 + (2 * n + 30) * eps) := mul_le_mul_of_nonneg_left (a2.trans a3) h0
      have a5 : p * ((2 * n + 30) * eps) ≤ 1 * ((2 * n + 30) * eps) := mul_le_mul_of_nonneg_right h1 (by positivity)
      nlinarith
    have : p - w / s = (p * s - w) / s := by field_simp
    have h3 : (p * s - w) / s ≤ (2 * n + 30) * eps := by
      rw [div_le_iff₀ hs0]
      have : (2 * n + 30) * eps * 1 ≤ (2 * n + 30) * eps * s := mul_le_mul_of_nonneg_left hs (by positivity)
      linarith
    linarith
  · have hws : w / s ≤ w := div_le_self (h0.trans hwp) hs
    have a1 : (p + eps) * c ≤ (p + eps) * (1 + 15 * eps) := mul_le_mul_of_nonneg_left hc (by linarith)
    have a2 : p * (15 * eps) ≤ 1 * (15 * eps) := mul_le_mul_of_nonneg_right h1 (by positivity)
    have a3 : eps * (15 * eps) ≤ eps * (1 : ℝ) := mul_le_mul_of_nonneg_left (by linarith) he.le
    have a4 : 0 ≤ n * eps := by positivity
    nlinarith

end Verif.Policy
