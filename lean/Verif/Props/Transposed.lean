import Verif.Conv.TransposeLemmas
import Mathlib.Algebra.Ring.Int.Defs

/-!
# C149: transposed convolutions
-/

namespace Verif.Props.Transposed
open Verif.Conv

variable {K : Type} [CommRing K]

/-- Inputs of the right length are accepted, and there are as many outputs as asked for. -/
theorem shape (a : Axis) (p : Padding) (length inputs size : Nat) (w : Nat → Nat → Nat → K) (bias : Option (Nat → K)) (x : Nat → Nat → K)
    (h : a.outputs p = length) :
    ∃ out, transpose1d a p length inputs size w bias x = some out ∧ out.length = a.size ∧ ∀ l ∈ out, l.length = size := by
  unfold transpose1d
  rw [if_pos h]
  refine ⟨_, rfl, by rw [List.length_map, List.length_range], fun l hl => ?_⟩
  obtain ⟨m, _, rfl⟩ := List.mem_map.1 hl
  rw [List.length_map, List.length_range]

example : (⟨6, 3, 2, 1⟩ : Axis).outputs .same = 3 := by decide

/-- Inputs of other lengths are refused. -/
theorem refused (a : Axis) (p : Padding) (length inputs size : Nat) (w : Nat → Nat → Nat → K) (bias : Option (Nat → K)) (x : Nat → Nat → K)
    (h : a.outputs p ≠ length) : transpose1d a p length inputs size w bias x = none := if_neg h

example : (⟨6, 3, 2, 1⟩ : Axis).outputs .valid ≠ 3 := by decide

/-- Without bias, the layer is the transpose of the convolution with the same weights, the features exchanged. Missing: the layer creates
these weights only if input and output have the same size (`Verif.Props.Shape.transpose_channels_violation`). -/
theorem adjoint_partial (a : Axis) (p : Padding) (length inputs size : Nat) (w : Nat → Nat → Nat → K) (x : Nat → Nat → K) (out : List (List K))
    (h : transpose1d a p length inputs size w none x = some out) (y : Nat → Nat → K) :
    ∑ m ∈ Finset.range a.size, ∑ c ∈ Finset.range size, at2 out m c * y m c =
      ∑ i ∈ Finset.range length, ∑ f ∈ Finset.range inputs, x i f * at2 (conv1d a p size inputs w none y) i f := by
  unfold transpose1d at h
  split at h
  · rename_i hl
    have ho := (Option.some.inj h).symm
    subst hl
    have l1 : ∑ m ∈ Finset.range a.size, ∑ c ∈ Finset.range size, at2 out m c * y m c =
        ∑ m ∈ Finset.range a.size, ∑ c ∈ Finset.range size, ∑ i ∈ Finset.range (a.outputs p), ∑ k ∈ Finset.range a.window, ∑ f ∈ Finset.range inputs,
          if a.entry p (i * a.stride + k * a.dilation) = some m then x i f * (y m c * w k c f) else 0 := by
      refine Finset.sum_congr rfl fun m hm => Finset.sum_congr rfl fun c hc => ?_
      have e : at2 out m c = cellT a p inputs w x m c := by
        rw [ho]
        exact at2_map _ _ (fun m c => addBias none c (cellT a p inputs w x m c)) m c (Finset.mem_range.1 hm) (Finset.mem_range.1 hc)
      rw [e, cellT_eq, Finset.sum_mul]
      refine Finset.sum_congr rfl fun i _ => ?_
      rw [Finset.sum_mul]
      refine Finset.sum_congr rfl fun k _ => ?_
      rw [Finset.sum_mul]
      refine Finset.sum_congr rfl fun f _ => ?_
      rw [ite_mul, zero_mul, mul_assoc, mul_comm (w k c f)]
    rw [l1, reorder]
    refine Finset.sum_congr rfl fun i hi => Finset.sum_congr rfl fun f hf => ?_
    rw [conv1d_value a p size inputs w y i f (Finset.mem_range.1 hi) (Finset.mem_range.1 hf), Finset.mul_sum]
    refine Finset.sum_congr rfl fun k _ => ?_
    rw [Finset.mul_sum]
    refine Finset.sum_congr rfl fun c _ => ?_
    rw [Finset.mul_sum]
    exact Finset.sum_congr rfl fun m _ => by rw [mul_ite, mul_zero]
  · cases h

example : transpose1d ⟨4, 2, 2, 1⟩ .same 2 1 1 (fun k _ _ => (k + 1 : Int)) none (fun i _ => i + 1) = some [[1], [2], [2], [4]] := by decide

/-- The bias is added to each output. -/
theorem bias_added (a : Axis) (p : Padding) (length inputs size : Nat) (w : Nat → Nat → Nat → K) (b : Nat → K) (x : Nat → Nat → K) (out out' : List (List K))
    (h : transpose1d a p length inputs size w none x = some out) (h' : transpose1d a p length inputs size w (some b) x = some out')
    (m c : Nat) (hm : m < a.size) (hc : c < size) : at2 out' m c = at2 out m c + b c := by
  unfold transpose1d at h h'
  split at h
  · rename_i hl
    rw [if_pos hl] at h'
    rw [← Option.some.inj h, ← Option.some.inj h', at2_map _ _ _ m c hm hc, at2_map _ _ _ m c hm hc]
    rfl
  · cases h

example : transpose1d ⟨4, 2, 2, 1⟩ .same 2 1 1 (fun k _ _ => (k + 1 : Int)) (some (fun _ => 3)) (fun i _ => i + 1) = some [[4], [5], [5], [7]] := by decide

/-- The default output width is one which the layer accepts. -/
theorem default_accepted (window stride dilation length : Nat) (hw : 0 < window) (hs : 0 < stride) (hd : 0 < dilation) (p : Padding) (inputs size : Nat)
    (w : Nat → Nat → Nat → K) (bias : Option (Nat → K)) (x : Nat → Nat → K) :
    ∃ out, transpose1d ⟨defaultWidth window stride dilation p length, window, stride, dilation⟩ p length inputs size w bias x = some out := by
  have key : (⟨defaultWidth window stride dilation p length, window, stride, dilation⟩ : Axis).outputs p = length := by
    obtain ⟨v, rfl⟩ : ∃ v, window = v + 1 := ⟨window - 1, by omega⟩
    obtain ⟨d, rfl⟩ : ∃ d, dilation = d + 1 := ⟨dilation - 1, by omega⟩
    have hm : v * (d + 1) = v * d + v := Nat.mul_succ v d
    cases p with
    | same =>
      show (length * stride + (stride - 1)) / stride = length
      rw [Nat.mul_comm, Nat.mul_add_div hs, Nat.div_eq_of_lt (by omega), Nat.add_zero]
    | valid =>
      show (length * stride + max (v + 1 + (v + 1 - 1) * (d + 1 - 1) - stride) 0 + 1 - ((v + 1 - 1) * (d + 1) + 1) + (stride - 1)) / stride = length
      simp only [Nat.add_sub_cancel]
      rw [hm]
      have hq : length = 0 ∧ length * stride = 0 ∨ stride ≤ length * stride := by
        rcases Nat.eq_zero_or_pos length with e | e
        · exact .inl ⟨e, by rw [e, Nat.zero_mul]⟩
        · exact .inr (Nat.le_mul_of_pos_left stride e)
      apply Nat.div_eq_of_lt_le
      · omega
      · rw [Nat.add_mul, Nat.one_mul]
        omega
  obtain ⟨out, e, _⟩ := shape ⟨defaultWidth window stride dilation p length, window, stride, dilation⟩ p length inputs size w bias x key
  exact ⟨out, e⟩

example : defaultWidth 3 2 1 .valid 4 = 9 := by decide

end Verif.Props.Transposed
