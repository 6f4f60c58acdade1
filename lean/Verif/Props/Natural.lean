import Verif.Grad.NaturalLemmas

/-!
# C130: the natural gradient step

The divergence of a step is its second-order approximation by the Fisher matrix.
-/

namespace Verif.Props.Natural

open Verif.Grad

variable {K : Type} [Field K] [LinearOrder K] [IsStrictOrderedRing K]

/-- The step is skipped exactly if only positive updates are wanted and the divergence of the solution is below epsilon times the learning rate; then
nothing is changed. -/
theorem skip (root : K → K) (fisher : List K → List K) (rate eps : K) (vars solution : List K)
    (h : divergence fisher solution < eps * rate) :
    naturalStep root fisher true rate eps vars solution = vars ∧
    ∀ x ∈ naturalDeltas root fisher true rate eps solution, x = 0 := by
  have hs : skipped true rate eps (curvature fisher solution) = true := by
    unfold skipped
    rw [curvature_eq, Bool.true_and]
    exact decide_eq_true h
  unfold naturalStep naturalDeltas
  rw [if_pos hs, if_pos hs]
  refine ⟨rfl, fun x hx => ?_⟩
  obtain ⟨y, _, rfl⟩ := List.mem_map.1 hx
  rfl

/-- The returned deltas are the change of the variables. -/
theorem reported (root : K → K) (fisher : List K → List K) (only : Bool) (rate eps : K) (vars solution : List K)
    (h : solution.length = vars.length) :
    Sum vars (naturalDeltas root fisher only rate eps solution) (naturalStep root fisher only rate eps vars solution) := by
  unfold naturalStep
  by_cases hs : skipped only rate eps (curvature fisher solution) = true
  · rw [if_pos hs]
    unfold naturalDeltas
    rw [if_pos hs]
    exact sum_zero vars solution h
  · rw [if_neg hs]
    refine sum_zip _ _ ?_
    unfold naturalDeltas
    rw [if_neg hs, List.length_map, h]

/-- A step which is not skipped: the solution of the solver, divided by a positive number if its divergence is positive, and the divergence of the step. -/
theorem size (root : K → K) (fisher : List K → List K) (hf : Homogeneous fisher) (only : Bool) (rate eps : K) (hr : 0 ≤ rate) (he : 0 < eps)
    (solution : List K) (hd : 0 < divergence fisher solution) (hdr : only = true → eps * rate ≤ divergence fisher solution)
    (hroot : IsRoot (divergence fisher solution) (root (divergence fisher solution))) :
    let r := root (divergence fisher solution)
    let out := naturalDeltas root fisher only rate eps solution
    (∃ s, 0 < s ∧ Scaled s solution out) ∧
    divergence fisher out * (r + eps * (rate + eps)) ^ 2 = (r * (rate + eps)) ^ 2 := by
  intro r out
  have hs : skipped only rate eps (curvature fisher solution) = false := by
    unfold skipped
    rw [curvature_eq]
    cases only with
    | false => rfl
    | true => exact decide_eq_false (not_lt.2 (hdr rfl))
  have hm := multiplier_pos hr he hd hroot
  have hout : out = solution.map (fun x => x / (r / (rate + eps) + eps)) := by
    show naturalDeltas root fisher only rate eps solution = _
    unfold naturalDeltas
    rw [hs, curvature_eq, hm.1]
    rfl
  have hre : 0 < rate + eps := by linarith
  have hrp : 0 < r := hm.2
  have hpos : 0 < r / (rate + eps) + eps := by positivity
  have hsc : Scaled (1 / (r / (rate + eps) + eps)) solution out := by
    rw [hout]
    exact scaled_div _ _
  refine ⟨⟨_, by positivity, hsc⟩, ?_⟩
  rw [divergence_scaled hf hsc, ← hroot.2]
  change (1 / (r / (rate + eps) + eps)) ^ 2 * (r * r) * _ = _
  have h1 : (r / (rate + eps) + eps) = (r + eps * (rate + eps)) / (rate + eps) := by
    field_simp
  have h2 : 0 < r + eps * (rate + eps) := by positivity
  rw [h1]
  field_simp

/-- The divergence of a step is below the square of the learning rate plus epsilon. -/
theorem limited (root : K → K) (fisher : List K → List K) (hf : Homogeneous fisher) (only : Bool) (rate eps : K) (hr : 0 ≤ rate) (he : 0 < eps)
    (solution : List K) (hp : 0 < divergence fisher solution → IsRoot (divergence fisher solution) (root (divergence fisher solution))) :
    divergence fisher (naturalDeltas root fisher only rate eps solution) < (rate + eps) ^ 2 := by
  have hre : 0 < rate + eps := by linarith
  have hsq : 0 < (rate + eps) ^ 2 := by positivity
  by_cases hs : skipped only rate eps (curvature fisher solution) = true
  · have : naturalDeltas root fisher only rate eps solution = solution.map (fun _ => 0) := by
      unfold naturalDeltas
      rw [if_pos hs]
    rw [this, divergence_scaled hf (scaled_zero solution)]
    linarith
  · by_cases hd : 0 < divergence fisher solution
    · have hdr : only = true → eps * rate ≤ divergence fisher solution := by
        intro ho
        unfold skipped at hs
        rw [ho, Bool.true_and, curvature_eq, decide_eq_true_eq] at hs
        exact not_lt.1 hs
      have h := (size root fisher hf only rate eps hr he solution hd hdr (hp hd)).2
      have hrp := (multiplier_pos hr he hd (hp hd)).2
      generalize divergence fisher (naturalDeltas root fisher only rate eps solution) = D at h ⊢
      generalize root (divergence fisher solution) = r at h hrp
      by_contra hn
      have hn := not_lt.1 hn
      have h2 : 0 < eps * (rate + eps) := by positivity
      have h3 : r ^ 2 < (r + eps * (rate + eps)) ^ 2 := by
        have : (r + eps * (rate + eps)) ^ 2 = r ^ 2 + (2 * r * (eps * (rate + eps)) + (eps * (rate + eps)) ^ 2) := by ring
        rw [this]
        have : 0 < 2 * r * (eps * (rate + eps)) + (eps * (rate + eps)) ^ 2 := by positivity
        linarith
      have h4 : (rate + eps) ^ 2 * (r + eps * (rate + eps)) ^ 2 ≤ D * (r + eps * (rate + eps)) ^ 2 :=
        mul_le_mul_of_nonneg_right hn (by positivity)
      have h5 : (rate + eps) ^ 2 * r ^ 2 < (rate + eps) ^ 2 * (r + eps * (rate + eps)) ^ 2 := mul_lt_mul_of_pos_left h3 hsq
      have h6 : (r * (rate + eps)) ^ 2 = (rate + eps) ^ 2 * r ^ 2 := by ring
      linarith
    · have : naturalDeltas root fisher only rate eps solution =
          solution.map (fun x => x / multiplier root rate eps (curvature fisher solution)) := by
        unfold naturalDeltas
        rw [if_neg hs]
      rw [this, divergence_scaled hf (scaled_div _ _)]
      have h1 := sq_nonneg (1 / multiplier root rate eps (curvature fisher solution))
      have h2 := mul_nonneg h1 (show 0 ≤ -divergence fisher solution by linarith)
      linarith

/-- Hence for learning rates up to 1 the divergence is at most the learning rate, up to epsilon. What is missing: the divergence is not equal to the
learning rate (`small_violation`), and not limited by it for larger learning rates (`large_violation`). -/
theorem limited_partial (root : K → K) (fisher : List K → List K) (hf : Homogeneous fisher) (only : Bool) (rate eps : K) (hr : 0 ≤ rate)
    (he : 0 < eps) (h1 : rate + eps ≤ 1) (solution : List K)
    (hp : 0 < divergence fisher solution → IsRoot (divergence fisher solution) (root (divergence fisher solution))) :
    divergence fisher (naturalDeltas root fisher only rate eps solution) < rate + eps := by
  have h := limited root fisher hf only rate eps hr he solution hp
  have : (rate + eps) * (rate + eps) ≤ (rate + eps) * 1 := mul_le_mul_of_nonneg_left h1 (by linarith)
  rw [sq] at h
  linarith

/-- With only positive updates a step goes downhill: the derivative of the loss in its direction is not positive, and negative if the step is not
skipped. -/
theorem descent (root : K → K) (fisher : List K → List K) (hf : Homogeneous fisher) (rate eps damping : K) (hr : 0 < rate) (he : 0 < eps)
    (hd : 0 ≤ damping) (solution gradient : List K) (hs : Solves damping (fisher solution) solution gradient)
    (hp : 0 < divergence fisher solution → IsRoot (divergence fisher solution) (root (divergence fisher solution))) :
    inner gradient (naturalDeltas root fisher true rate eps solution) ≤ 0 ∧
    (eps * rate ≤ divergence fisher solution → inner gradient (naturalDeltas root fisher true rate eps solution) < 0) := by
  have key : eps * rate ≤ divergence fisher solution → inner gradient (naturalDeltas root fisher true rate eps solution) < 0 := by
    intro hle
    have hpos : 0 < divergence fisher solution := lt_of_lt_of_le (mul_pos he hr) hle
    obtain ⟨⟨s, hs0, hsc⟩, _⟩ := size root fisher hf true rate eps hr.le he solution hpos (fun _ => hle) (hp hpos)
    rw [inner_scaled (scaled_one gradient) hsc, inner_solves hs]
    have h1 : 0 < inner (fisher solution) solution := by
      unfold divergence at hpos
      linarith
    have h2 := mul_nonneg hd (inner_self_nonneg solution)
    have h3 : 0 < s * (inner (fisher solution) solution + damping * inner solution solution) := mul_pos hs0 (by linarith)
    linarith
  refine ⟨?_, key⟩
  by_cases hle : eps * rate ≤ divergence fisher solution
  · exact (key hle).le
  · have : naturalDeltas root fisher true rate eps solution = solution.map (fun _ => 0) := by
      unfold naturalDeltas skipped
      rw [curvature_eq, Bool.true_and, if_pos (decide_eq_true (lt_of_not_ge hle))]
    rw [this, inner_scaled (scaled_one gradient) (scaled_zero solution)]
    linarith

/-- Without damping every step goes downhill, also if the divergence is negative. What is missing: damping (`uphill_violation`). -/
theorem descent_partial (root : K → K) (fisher : List K → List K) (only : Bool) (rate eps : K) (hr : 0 ≤ rate)
    (he : 0 < eps) (solution gradient : List K) (hs : Solves 0 (fisher solution) solution gradient)
    (hp : 0 < divergence fisher solution → IsRoot (divergence fisher solution) (root (divergence fisher solution)))
    (hn : divergence fisher solution ≤ 0 → IsRoot (-divergence fisher solution) (root (-divergence fisher solution))) :
    inner gradient (naturalDeltas root fisher only rate eps solution) ≤ 0 := by
  have hg : inner gradient solution = -(2 * divergence fisher solution) := by
    rw [inner_solves hs]
    unfold divergence
    ring
  have hre : 0 < rate + eps := by linarith
  by_cases hk : skipped only rate eps (curvature fisher solution) = true
  · have : naturalDeltas root fisher only rate eps solution = solution.map (fun _ => 0) := by
      unfold naturalDeltas
      rw [if_pos hk]
    rw [this, inner_scaled (scaled_one gradient) (scaled_zero solution)]
    linarith
  · have : naturalDeltas root fisher only rate eps solution =
        solution.map (fun x => x / multiplier root rate eps (divergence fisher solution)) := by
      unfold naturalDeltas
      rw [if_neg hk, curvature_eq]
    rw [this, inner_scaled (scaled_one gradient) (scaled_div _ _), hg]
    by_cases hd : 0 < divergence fisher solution
    · obtain ⟨hm, hr0⟩ := multiplier_pos hr he hd (hp hd)
      rw [hm]
      have h1 : 0 < 1 / (root (divergence fisher solution) / (rate + eps) + eps) := by positivity
      have h2 := mul_pos h1 hd
      linarith
    · have hd := not_lt.1 hd
      obtain ⟨hm, hr0⟩ := multiplier_nonpos hr he hd (hn hd)
      rw [hm, one_div, inv_neg]
      have h1 : 0 ≤ (root (-divergence fisher solution) / (rate + eps) + eps)⁻¹ := by positivity
      have h2 := mul_nonneg h1 (show 0 ≤ -divergence fisher solution by linarith)
      linarith

/-! ## Examples and violations -/

theorem id_homogeneous : Homogeneous (fun a : List ℚ => a) := ⟨fun _ _ _ h => h, fun _ => rfl⟩

theorem zero_homogeneous : Homogeneous (fun a : List ℚ => a.map (fun _ => 0)) := by
  refine ⟨fun s a b h => ?_, fun a => List.length_map _⟩
  induction h with
  | nil => exact .nil
  | @cons x t u _ ih =>
    have := Scaled.cons (x := 0) ih
    rwa [mul_zero] at this

/-- Two variables, Fisher matrix one, solution (1, 1): divergence 1, with square root 1. -/
example : divergence (fun a : List ℚ => a) [1, 1] = 1 ∧ IsRoot (1 : ℚ) 1 := ⟨by decide +kernel, by decide +kernel, by decide +kernel⟩
example : Solves (1 / 10) [1, 1] [1, 1] [-11 / 10, -(11 / 10 : ℚ)] := .cons (by decide +kernel) (.cons (by decide +kernel) .nil)
example : naturalDeltas (fun _ : ℚ => 1) (fun a => a) true 1 (1 / 4) [1, 1] = [20 / 21, 20 / 21] := by decide +kernel

/-- With learning rate 2 the divergence of the step is more than 3.9. -/
theorem large_violation : ∃ (fisher : List ℚ → List ℚ) (root : ℚ → ℚ) (solution : List ℚ), Homogeneous fisher ∧
    IsRoot (divergence fisher solution) (root (divergence fisher solution)) ∧
    39 / 10 < divergence fisher (naturalDeltas root fisher true 2 (1 / 1000000) solution) :=
  ⟨fun a => a, fun _ => 1, [1, 1], id_homogeneous, by decide +kernel, by decide +kernel⟩

/-- With learning rate 0.01 the divergence of the step is less than 0.00011. -/
theorem small_violation : ∃ (fisher : List ℚ → List ℚ) (root : ℚ → ℚ) (solution : List ℚ), Homogeneous fisher ∧
    IsRoot (divergence fisher solution) (root (divergence fisher solution)) ∧
    divergence fisher (naturalDeltas root fisher true (1 / 100) (1 / 1000000) solution) < 11 / 100000 :=
  ⟨fun a => a, fun _ => 1, [1, 1], id_homogeneous, by decide +kernel, by decide +kernel⟩

/-- With damping, and not only positive updates, a step may go uphill, and far: where the distribution does not depend on the variables, by the
gradient divided by damping and epsilon. -/
theorem uphill_violation : ∃ (fisher : List ℚ → List ℚ) (root : ℚ → ℚ) (solution gradient : List ℚ), Homogeneous fisher ∧
    IsRoot (-divergence fisher solution) (root (-divergence fisher solution)) ∧
    Solves (1 / 10) (fisher solution) solution gradient ∧
    naturalDeltas root fisher false (1 / 100) (1 / 1000000) solution = [10000000] ∧
    0 < inner gradient (naturalDeltas root fisher false (1 / 100) (1 / 1000000) solution) :=
  ⟨fun a => a.map (fun _ => 0), fun _ => 0, [-10], [1], zero_homogeneous, by decide +kernel, .cons (by decide +kernel) .nil, by decide +kernel,
    by decide +kernel⟩

/-- The same happens with only positive updates if the learning rate is 0, which is accepted. -/
theorem zero_rate_violation : ∃ (fisher : List ℚ → List ℚ) (root : ℚ → ℚ) (solution gradient : List ℚ), Homogeneous fisher ∧
    IsRoot (-divergence fisher solution) (root (-divergence fisher solution)) ∧
    Solves (1 / 10) (fisher solution) solution gradient ∧
    0 < inner gradient (naturalDeltas root fisher true 0 (1 / 1000000) solution) :=
  ⟨fun a => a.map (fun _ => 0), fun _ => 0, [-10], [1], zero_homogeneous, by decide +kernel, .cons (by decide +kernel) .nil, by decide +kernel⟩

end Verif.Props.Natural
