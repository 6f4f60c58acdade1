import Verif.Policy.Categorical
import Verif.Policy.Real
import Mathlib.Tactic.LinearCombination

/-! # Lemmas about discrete distributions -/

namespace Verif.Policy

variable {K : Type} [Field K] [LinearOrder K] [IsStrictOrderedRing K]

/-- The greatest action value has the greatest logit. -/
theorem mode_logit {f : Fns K} (hf : Laws f) (raw : Option K) (mask : Option (List Bool))
    (vs : List K) (hne : vs ≠ []) (hm : ∀ m, mask = some m → m.length = vs.length)
    (hv : mask.isSome → ∀ v ∈ vs, -(10 ^ 30) ≤ v) :
    ∃ b, (applyMask mask (rawLogits f raw vs))[argmax (applyMask mask vs)]? = some b ∧
      ∀ y ∈ applyMask mask (rawLogits f raw vs), y ≤ b := by
  -- the logits are a monotone function of the values
  have hg : ∃ g : K → K, (∀ x y, x ≤ y → g x ≤ g y) ∧
      rawLogits f raw vs = vs.map g := by
    cases raw with
    | none => exact ⟨id, fun x y h => h, by simp [rawLogits]⟩
    | some r =>
      exact ⟨fun v => v / softplusScale f r,
        fun x y h => div_le_div_of_nonneg_right h (le_of_lt (softplusScale_pos hf r)), rfl⟩
  obtain ⟨g, hmono, he⟩ := hg
  have hl : (applyMask mask vs).length = vs.length := masked_length mask vs hm
  have hne' : applyMask mask vs ≠ [] := by
    intro h
    rw [h] at hl
    exact hne (List.length_eq_zero_iff.1 hl.symm)
  obtain ⟨hi, b, hb, hmax, -⟩ := argmax_spec _ hne'
  generalize argmax (applyMask mask vs) = i at hi hb
  have hiv : i < vs.length := by omega
  cases mask with
  | none =>
    refine ⟨g b, ?_, ?_⟩
    · have hb' : vs[i]? = some b := hb
      show (rawLogits f raw vs)[i]? = _
      rw [he, List.getElem?_map, hb', Option.map_some]
    · intro y hy
      have hy' : y ∈ rawLogits f raw vs := hy
      rw [he] at hy'
      obtain ⟨x, hx, rfl⟩ := List.mem_map.1 hy'
      exact hmono _ _ (hmax x hx)
  | some m =>
    have hml := hm m rfl
    have hlow := rawLogits_ge hf raw vs (hv rfl)
    have hfm := floatMin_lt (K := K)
    have him : i < m.length := by omega
    have hir : i < (rawLogits f raw vs).length := by
      rw [rawLogits_length]
      exact hiv
    have h1 := applyMask_getElem m vs i (List.getElem?_eq_getElem him) (List.getElem?_eq_getElem hiv)
    have h2 := applyMask_getElem m (rawLogits f raw vs) i (List.getElem?_eq_getElem him)
      (List.getElem?_eq_getElem hir)
    have hgi : (rawLogits f raw vs)[i] = g vs[i] := by
      have : (rawLogits f raw vs)[i]? = some (g vs[i]) := by
        rw [he, List.getElem?_map, List.getElem?_eq_getElem hiv, Option.map_some]
      rw [List.getElem?_eq_getElem hir] at this
      exact Option.some.inj this
    refine ⟨_, h2, ?_⟩
    intro y hy
    obtain ⟨j, hj⟩ := List.mem_iff_getElem?.1 hy
    have hjl : j < (applyMask (some m) (rawLogits f raw vs)).length :=
      (List.getElem?_eq_some_iff.1 hj).1
    rw [applyMask_length m _ (by rw [rawLogits_length]; exact hml)] at hjl
    have hjv : j < vs.length := by rwa [rawLogits_length] at hjl
    have hjm : j < m.length := by omega
    have h3 := applyMask_getElem m vs j (List.getElem?_eq_getElem hjm) (List.getElem?_eq_getElem hjv)
    have h4 := applyMask_getElem m (rawLogits f raw vs) j (List.getElem?_eq_getElem hjm)
      (List.getElem?_eq_getElem hjl)
    have hgj : (rawLogits f raw vs)[j] = g vs[j] := by
      have : (rawLogits f raw vs)[j]? = some (g vs[j]) := by
        rw [he, List.getElem?_map, List.getElem?_eq_getElem hjv, Option.map_some]
      rw [List.getElem?_eq_getElem hjl] at this
      exact Option.some.inj this
    rw [h4] at hj
    cases hj
    have h5 := hmax _ (List.mem_of_getElem? h3)
    rw [h1] at hb
    cases hb
    have hli := hlow _ (List.getElem_mem hir)
    by_cases hmj : m[j] = true
    · rw [if_pos hmj] at h5 ⊢
      by_cases hmi : m[i] = true
      · rw [if_pos hmi] at h5 ⊢
        rw [hgi, hgj]
        exact hmono _ _ h5
      · rw [if_neg hmi] at h5
        have := hv rfl _ (List.getElem_mem hjv)
        linarith
    · rw [if_neg hmj]
      split
      · linarith
      · exact le_refl _

/-! ### Entropy -/

theorem zipWith_self_map {α β : Type} (g : α → α → β) (h : α → α) : ∀ xs : List α,
    List.zipWith g xs (xs.map h) = xs.map fun x => g x (h x)
  | [] => rfl
  | x :: xs => by
    rw [List.map_cons, List.zipWith_cons_cons, zipWith_self_map g h xs, List.map_cons]

theorem sum_map_le {α : Type} (g h : α → K) : ∀ xs : List α, (∀ x ∈ xs, g x ≤ h x) →
    (xs.map g).sum ≤ (xs.map h).sum
  | [], _ => le_refl _
  | x :: xs, hx => by
    rw [List.map_cons, List.map_cons, List.sum_cons, List.sum_cons]
    have h1 := hx x (List.mem_cons_self ..)
    have h2 := sum_map_le g h xs fun y hy => hx y (List.mem_cons_of_mem _ hy)
    linarith

theorem sum_map_linear (a b : K) : ∀ xs : List K,
    (xs.map fun x => a * x + b).sum = a * xs.sum + b * (xs.length : K)
  | [] => by simp
  | x :: xs => by
    rw [List.map_cons, List.sum_cons, sum_map_linear a b xs, List.sum_cons, List.length_cons]
    push_cast
    ring

theorem categoricalEntropy_eq (f : Fns K) (raw : Option K) (mask : Option (List Bool))
    (vs : List K) :
    categoricalEntropy (categoricalParams f raw mask vs) =
      -((categoricalParams f raw mask vs).probabilities.map fun p => p * f.log (p + eps)).sum := by
  unfold categoricalEntropy
  rw [params_logits, zipWith_self_map]

/-! ### Real bounds -/

theorem log_term {p q : ℝ} (hp : 0 ≤ p) (hq : 0 ≤ q) :
    p - q - eps ≤ p * (Real.log (p + eps) - Real.log (q + eps)) := by
  have he : (0 : ℝ) < eps := eps_pos
  have h1 : 0 < p + eps := by linarith
  have h2 : 0 < q + eps := by linarith
  have h3 := Real.log_le_sub_one_of_pos (div_pos h2 h1)
  rw [Real.log_div (ne_of_gt h2) (ne_of_gt h1)] at h3
  have h4 : p * (1 - (q + eps) / (p + eps)) ≤ p * (Real.log (p + eps) - Real.log (q + eps)) :=
    mul_le_mul_of_nonneg_left (by linarith) hp
  refine le_trans ?_ h4
  have h5 : p * (1 - (q + eps) / (p + eps)) = (p - q) - eps * ((p - q) / (p + eps)) := by
    field_simp
    ring
  have h6 : (p - q) / (p + eps) ≤ 1 := by
    rw [div_le_one h1]
    linarith
  have h7 := mul_le_mul_of_nonneg_left h6 (le_of_lt he)
  rw [h5]
  linarith

theorem log_sum : ∀ ps qs : List ℝ, ps.length = qs.length → (∀ p ∈ ps, 0 ≤ p) →
    (∀ q ∈ qs, 0 ≤ q) →
    ps.sum - qs.sum - (ps.length : ℝ) * eps ≤
      (List.zipWith (· * ·) ps (List.zipWith (· - ·) (ps.map fun p => Real.log (p + eps))
        (qs.map fun q => Real.log (q + eps)))).sum
  | [], [], _, _, _ => by simp
  | p :: ps, q :: qs, hl, hp, hq => by
    have h1 := log_term (hp p (List.mem_cons_self ..)) (hq q (List.mem_cons_self ..))
    have h2 := log_sum ps qs (by simpa using hl) (fun x hx => hp x (List.mem_cons_of_mem _ hx))
      fun x hx => hq x (List.mem_cons_of_mem _ hx)
    simp only [List.map_cons, List.zipWith_cons_cons, List.sum_cons, List.length_cons]
    push_cast
    linarith

theorem entropy_term {p n : ℝ} (hp : 0 ≤ p) (hn : 0 < n) :
    -(p * Real.log (p + eps)) ≤ (Real.log n - 1) * p + 1 / n := by
  have he : (0 : ℝ) < eps := eps_pos
  have h1 : 0 < p + eps := by linarith
  have h2 := Real.log_le_sub_one_of_pos (div_pos one_pos (mul_pos hn h1))
  rw [Real.log_div one_ne_zero (ne_of_gt (mul_pos hn h1)), Real.log_one,
    Real.log_mul (ne_of_gt hn) (ne_of_gt h1)] at h2
  have h3 := mul_le_mul_of_nonneg_left h2 hp
  have h4 : p * (1 / (n * (p + eps))) ≤ 1 / n := by
    rw [mul_one_div, div_le_div_iff₀ (mul_pos hn h1) hn, one_mul]
    have := mul_nonneg (le_of_lt hn) (le_of_lt he)
    linarith [mul_comm p n]
  linarith

theorem log_le_square {y : ℝ} (hy : 0 < y) : Real.log y ≤ (y ^ 2 - 1) / 2 := by
  have h := Real.log_le_sub_one_of_pos (pow_pos hy 2)
  rw [Real.log_pow] at h
  push_cast at h
  linarith

theorem gaussian_bound {s t m : ℝ} (hs : 0 < s) (ht : 0 < t) :
    -(eps / 2 * (s ^ 2 / t ^ 4 + (2 * s + eps) / t ^ 2)) ≤
      (Real.log (t + eps) - Real.log (s + eps)) + 1 / 2 * (s ^ 2 + m ^ 2) / (t ^ 2 + eps)
        - 1 / 2 := by
  have he : (0 : ℝ) < eps := eps_pos
  have h1 : 0 < s + eps := by linarith
  have h2 : 0 < t + eps := by linarith
  have h3 := log_le_square (div_pos h1 h2)
  rw [Real.log_div (ne_of_gt h1) (ne_of_gt h2)] at h3
  have ht2 : 0 < t ^ 2 := pow_pos ht 2
  have h4 : ((s + eps) / (t + eps)) ^ 2 ≤ (s + eps) ^ 2 / t ^ 2 := by
    rw [div_pow]
    exact div_le_div_of_nonneg_left (by positivity) ht2
      (pow_le_pow_left₀ (le_of_lt ht) (by linarith) 2)
  have h5 : (s + eps) ^ 2 / t ^ 2 = s ^ 2 / t ^ 2 + eps * ((2 * s + eps) / t ^ 2) := by
    field_simp
    ring
  have h6 : s ^ 2 / t ^ 2 - eps * (s ^ 2 / t ^ 4) ≤ s ^ 2 / (t ^ 2 + eps) := by
    have e : s ^ 2 / (t ^ 2 + eps) - (s ^ 2 / t ^ 2 - eps * (s ^ 2 / t ^ 4)) =
        s ^ 2 * eps ^ 2 / (t ^ 4 * (t ^ 2 + eps)) := by
      have : t ^ 2 + eps ≠ 0 := by positivity
      field_simp
      ring
    have : 0 ≤ s ^ 2 * eps ^ 2 / (t ^ 4 * (t ^ 2 + eps)) := by positivity
    linarith
  have h7 : s ^ 2 / (t ^ 2 + eps) ≤ (s ^ 2 + m ^ 2) / (t ^ 2 + eps) :=
    div_le_div_of_nonneg_right (by nlinarith [sq_nonneg m]) (by positivity)
  have h8 : 1 / 2 * (s ^ 2 + m ^ 2) / (t ^ 2 + eps) = 1 / 2 * ((s ^ 2 + m ^ 2) / (t ^ 2 + eps)) :=
    mul_div_assoc ..
  rw [h8]
  linarith

end Verif.Policy
