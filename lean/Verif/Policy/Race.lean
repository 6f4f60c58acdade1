import Mathlib.MeasureTheory.Constructions.Pi
import Mathlib.MeasureTheory.Measure.Lebesgue.Basic
import Mathlib.Analysis.SpecialFunctions.Integrals.Basic
import Mathlib.Tactic.Linarith
import Mathlib.Tactic.FieldSimp

/-!
# Volumes of races

The volume of the numbers in the unit cube for which one coordinate wins the race with given weights.
-/

namespace Verif.Policy

open MeasureTheory Set

/-- Coordinate `i` wins against all others. -/
def wins {n : ℕ} (w : Fin n → ℝ) (i : Fin n) : Set (Fin n → ℝ) :=
  {u | (∀ k, 0 < u k ∧ u k < 1) ∧ ∀ j, j ≠ i → u j < u i ^ (w j / w i)}

/-- Coordinate `i` does not lose. -/
def holds {n : ℕ} (w : Fin n → ℝ) (i : Fin n) : Set (Fin n → ℝ) :=
  {u | (∀ k, 0 < u k ∧ u k < 1) ∧ ∀ j, j ≠ i → u j ≤ u i ^ (w j / w i)}

/-- Integral of a power over the unit interval. -/
theorem lintegral_pow {s : ℝ} (hs : 0 ≤ s) :
    ∫⁻ x in Ioo (0 : ℝ) 1, ENNReal.ofReal (x ^ s) = ENNReal.ofReal (1 / (s + 1)) := by
  have hint : IntervalIntegrable (fun x : ℝ => x ^ s) volume 0 1 := intervalIntegral.intervalIntegrable_rpow' (by linarith)
  rw [← ofReal_integral_eq_lintegral_ofReal]
  · rw [← integral_Ioc_eq_integral_Ioo, ← intervalIntegral.integral_of_le (by norm_num), integral_rpow (Or.inl (by linarith))]
    rw [Real.one_rpow, Real.zero_rpow (by linarith)]
    simp
  · exact ((intervalIntegrable_iff_integrableOn_Ioo_of_le (by norm_num)).1 hint)
  · refine (ae_restrict_iff' measurableSet_Ioo).2 (ae_of_all _ fun x hx => ?_)
    exact Real.rpow_nonneg hx.1.le s

/-- Volume of a race whose other coordinates are limited by powers of the first. -/
theorem volume_fibre {n : ℕ} (r : Fin n → ℝ) (hr : ∀ k, 0 ≤ r k) (S : Set (ℝ × (Fin n → ℝ))) (hS : MeasurableSet S)
    (hin : ∀ x, x ∈ Ioo (0 : ℝ) 1 → volume (Prod.mk x ⁻¹' S) = ∏ k, ENNReal.ofReal (x ^ r k))
    (hout : ∀ x, x ∉ Ioo (0 : ℝ) 1 → volume (Prod.mk x ⁻¹' S) = 0) :
    (volume : Measure (ℝ × (Fin n → ℝ))) S = ENNReal.ofReal (1 / (∑ k, r k + 1)) := by
  rw [Measure.volume_eq_prod, Measure.prod_apply hS, ← lintegral_pow (Finset.sum_nonneg fun k _ => hr k),
    ← lintegral_indicator measurableSet_Ioo]
  refine lintegral_congr fun x => ?_
  by_cases hx : x ∈ Ioo (0 : ℝ) 1
  · rw [indicator_of_mem hx, hin x hx, ← ENNReal.ofReal_prod_of_nonneg fun k _ => Real.rpow_nonneg hx.1.le _,
      Real.rpow_sum_of_pos hx.1]
  · rw [indicator_of_notMem hx, hout x hx]

theorem ratio_sum {n : ℕ} (w : Fin (n + 1) → ℝ) (hw : ∀ k, 0 < w k) (i : Fin (n + 1)) :
    1 / (∑ k, w (i.succAbove k) / w i + 1) = w i / ∑ k, w k := by
  rw [← Finset.sum_div, Fin.sum_univ_succAbove w i]
  have := hw i
  have h2 : 0 ≤ ∑ k, w (i.succAbove k) := Finset.sum_nonneg fun k _ => (hw _).le
  field_simp
  ring

theorem pow_lt_one {x r : ℝ} (hx : x ∈ Ioo (0 : ℝ) 1) (hr : 0 < r) : x ^ r < 1 := Real.rpow_lt_one hx.1.le hx.2 hr

theorem volume_wins {n : ℕ} (w : Fin n → ℝ) (hw : ∀ k, 0 < w k) (i : Fin n) :
    volume (wins w i) = ENNReal.ofReal (w i / ∑ k, w k) := by
  obtain ⟨m, rfl⟩ : ∃ m, n = m + 1 := ⟨n - 1, by have := i.2; omega⟩
  let e := MeasurableEquiv.piFinSuccAbove (fun _ : Fin (m + 1) => ℝ) i
  let S : Set (ℝ × (Fin m → ℝ)) :=
    {p | p.1 ∈ Ioo (0 : ℝ) 1} ∩ ⋂ k, {p | 0 < p.2 k} ∩ {p | p.2 k < p.1 ^ (w (i.succAbove k) / w i)}
  have hr : ∀ k, 0 < w (i.succAbove k) / w i := fun k => div_pos (hw _) (hw _)
  have hS : MeasurableSet S := by
    refine (measurable_fst measurableSet_Ioo).inter (MeasurableSet.iInter fun k => ?_)
    refine (measurableSet_lt measurable_const ((measurable_pi_apply k).comp measurable_snd)).inter ?_
    exact measurableSet_lt ((measurable_pi_apply k).comp measurable_snd) (measurable_fst.pow_const _)
  have hpre : wins w i = e ⁻¹' S := by
    ext u
    simp only [wins, mem_ofPred_eq, S, mem_preimage, mem_inter_iff, mem_iInter, e, MeasurableEquiv.piFinSuccAbove_apply,
      Fin.insertNthEquiv_symm_apply, Fin.removeNth]
    constructor
    · rintro ⟨h1, h2⟩
      exact ⟨h1 i, fun k => ⟨(h1 _).1, h2 _ (Fin.succAbove_ne i k)⟩⟩
    · rintro ⟨h1, h2⟩
      have h3 : ∀ j, j ≠ i → 0 < u j ∧ u j < u i ^ (w j / w i) := by
        intro j hj
        obtain ⟨k, rfl⟩ := Fin.exists_succAbove_eq hj
        exact h2 k
      refine ⟨fun k => ?_, fun j hj => (h3 j hj).2⟩
      by_cases hk : k = i
      · rw [hk]; exact h1
      · exact ⟨(h3 k hk).1, (h3 k hk).2.trans (pow_lt_one h1 (div_pos (hw _) (hw _)))⟩
  rw [hpre, (volume_preserving_piFinSuccAbove (fun _ : Fin (m + 1) => ℝ) i).measure_preimage hS.nullMeasurableSet,
    ← ratio_sum w hw i]
  refine volume_fibre _ (fun k => (hr k).le) S hS (fun x hx => ?_) (fun x hx => ?_)
  · have : Prod.mk x ⁻¹' S = pi univ fun k => Ioo 0 (x ^ (w (i.succAbove k) / w i)) := by
      ext y
      simp [S, hx.1, hx.2]
    rw [this, Real.volume_pi_Ioo]
    simp
  · have : Prod.mk x ⁻¹' S = ∅ := by
      ext y
      simp only [S, mem_preimage, mem_inter_iff, mem_ofPred_eq, mem_empty_iff_false, iff_false]
      exact fun h => hx h.1
    rw [this, measure_empty]

theorem volume_holds {n : ℕ} (w : Fin n → ℝ) (hw : ∀ k, 0 < w k) (i : Fin n) :
    volume (holds w i) = ENNReal.ofReal (w i / ∑ k, w k) := by
  obtain ⟨m, rfl⟩ : ∃ m, n = m + 1 := ⟨n - 1, by have := i.2; omega⟩
  let e := MeasurableEquiv.piFinSuccAbove (fun _ : Fin (m + 1) => ℝ) i
  let S : Set (ℝ × (Fin m → ℝ)) :=
    {p | p.1 ∈ Ioo (0 : ℝ) 1} ∩ ⋂ k, {p | 0 < p.2 k} ∩ {p | p.2 k ≤ p.1 ^ (w (i.succAbove k) / w i)}
  have hr : ∀ k, 0 < w (i.succAbove k) / w i := fun k => div_pos (hw _) (hw _)
  have hS : MeasurableSet S := by
    refine (measurable_fst measurableSet_Ioo).inter (MeasurableSet.iInter fun k => ?_)
    refine (measurableSet_lt measurable_const ((measurable_pi_apply k).comp measurable_snd)).inter ?_
    exact measurableSet_le ((measurable_pi_apply k).comp measurable_snd) (measurable_fst.pow_const _)
  have hpre : holds w i = e ⁻¹' S := by
    ext u
    simp only [holds, mem_ofPred_eq, S, mem_preimage, mem_inter_iff, mem_iInter, e, MeasurableEquiv.piFinSuccAbove_apply,
      Fin.insertNthEquiv_symm_apply, Fin.removeNth]
    constructor
    · rintro ⟨h1, h2⟩
      exact ⟨h1 i, fun k => ⟨(h1 _).1, h2 _ (Fin.succAbove_ne i k)⟩⟩
    · rintro ⟨h1, h2⟩
      have h3 : ∀ j, j ≠ i → 0 < u j ∧ u j ≤ u i ^ (w j / w i) := by
        intro j hj
        obtain ⟨k, rfl⟩ := Fin.exists_succAbove_eq hj
        exact h2 k
      refine ⟨fun k => ?_, fun j hj => (h3 j hj).2⟩
      by_cases hk : k = i
      · rw [hk]; exact h1
      · exact ⟨(h3 k hk).1, (h3 k hk).2.trans_lt (pow_lt_one h1 (div_pos (hw _) (hw _)))⟩
  rw [hpre, (volume_preserving_piFinSuccAbove (fun _ : Fin (m + 1) => ℝ) i).measure_preimage hS.nullMeasurableSet,
    ← ratio_sum w hw i]
  refine volume_fibre _ (fun k => (hr k).le) S hS (fun x hx => ?_) (fun x hx => ?_)
  · have : Prod.mk x ⁻¹' S = pi univ fun k => Ioc 0 (x ^ (w (i.succAbove k) / w i)) := by
      ext y
      simp [S, hx.1, hx.2]
    rw [this, Real.volume_pi_Ioc]
    simp
  · have : Prod.mk x ⁻¹' S = ∅ := by
      ext y
      simp only [S, mem_preimage, mem_inter_iff, mem_ofPred_eq, mem_empty_iff_false, iff_false]
      exact fun h => hx h.1
    rw [this, measure_empty]

end Verif.Policy
