import Verif.Conv.Transpose
import Verif.Conv.Lemmas

/-!
# Lemmas on transposed convolutions
-/

namespace Verif.Conv

variable {K : Type} [CommRing K]

theorem at2_map (n size : Nat) (g : Nat → Nat → K) (m c : Nat) (hm : m < n) (hc : c < size) :
    at2 ((List.range n).map fun m => (List.range size).map fun c => g m c) m c = g m c := by
  unfold at2
  rw [range_get n m hm]
  show ((List.range size).map fun c => g m c)[c]?.getD 0 = _
  rw [range_get size c hc]
  rfl

theorem row_padded (a : Axis) (p : Padding) (y : Nat → Nat → K) (s c : Nat) :
    padded ⟨1, 1, 1, 1⟩ a p (fun _ => y) (0 * 1 + 0 * 1) s c = ∑ m ∈ Finset.range a.size, if a.entry p s = some m then y m c else 0 := by
  have e : (⟨1, 1, 1, 1⟩ : Axis).entry p (0 * 1 + 0 * 1) = some 0 := by cases p <;> decide
  unfold padded
  rw [e]
  cases h : a.entry p s with
  | none => exact (Finset.sum_eq_zero fun m _ => if_neg nofun).symm
  | some n =>
    rw [Finset.sum_eq_single n (fun m _ hm => if_neg fun e => hm (Option.some.inj e).symm)
      (fun hn => absurd (Finset.mem_range.2 (entry_some _ _ _ _ h).1) hn), if_pos rfl]

theorem conv1d_value (a : Axis) (p : Padding) (size inputs : Nat) (w : Nat → Nat → Nat → K) (y : Nat → Nat → K) (i f : Nat)
    (hi : i < a.outputs p) (hf : f < inputs) :
    at2 (conv1d a p size inputs w none y) i f = ∑ k ∈ Finset.range a.window, ∑ c ∈ Finset.range size, ∑ m ∈ Finset.range a.size,
      if a.entry p (i * a.stride + k * a.dilation) = some m then y m c * w k c f else 0 := by
  have o : (⟨1, 1, 1, 1⟩ : Axis).outputs p = 1 := by cases p <;> decide
  have e : conv1d a p size inputs w none y = (List.range (a.outputs p)).map fun j => (List.range inputs).map fun c =>
      cell ⟨1, 1, 1, 1⟩ a p size (fun _ => w) (fun _ => y) 0 j c := by
    unfold conv1d conv2d
    rw [o]
    rfl
  rw [e, at2_map _ _ _ i f hi hf, cell_eq]
  show (∑ k ∈ Finset.range 1, _) = _
  rw [Finset.sum_range_one]
  refine Finset.sum_congr rfl fun k _ => Finset.sum_congr rfl fun c _ => ?_
  show padded ⟨1, 1, 1, 1⟩ a p (fun _ => y) (0 * 1 + 0 * 1) _ c * _ = _
  rw [row_padded, Finset.sum_mul]
  exact Finset.sum_congr rfl fun m _ => by rw [ite_mul, zero_mul]

theorem cellT_eq (a : Axis) (p : Padding) (inputs : Nat) (w : Nat → Nat → Nat → K) (x : Nat → Nat → K) (m c : Nat) :
    cellT a p inputs w x m c = ∑ i ∈ Finset.range (a.outputs p), ∑ k ∈ Finset.range a.window, ∑ f ∈ Finset.range inputs,
      if a.entry p (i * a.stride + k * a.dilation) = some m then x i f * w k c f else 0 := by
  unfold cellT
  rw [upTo_eq]
  refine Finset.sum_congr rfl fun i _ => ?_
  rw [upTo_eq]
  refine Finset.sum_congr rfl fun k _ => ?_
  split
  · exact upTo_eq _ _
  · exact Finset.sum_const_zero.symm

theorem reorder (M C I W F : Finset Nat) (g : Nat → Nat → Nat → Nat → Nat → K) :
    ∑ m ∈ M, ∑ c ∈ C, ∑ i ∈ I, ∑ k ∈ W, ∑ f ∈ F, g m c i k f = ∑ i ∈ I, ∑ f ∈ F, ∑ k ∈ W, ∑ c ∈ C, ∑ m ∈ M, g m c i k f := by
  calc _ = ∑ c ∈ C, ∑ m ∈ M, ∑ i ∈ I, ∑ k ∈ W, ∑ f ∈ F, g m c i k f := Finset.sum_comm
    _ = ∑ c ∈ C, ∑ i ∈ I, ∑ m ∈ M, ∑ k ∈ W, ∑ f ∈ F, g m c i k f := Finset.sum_congr rfl fun c _ => Finset.sum_comm
    _ = ∑ i ∈ I, ∑ c ∈ C, ∑ m ∈ M, ∑ k ∈ W, ∑ f ∈ F, g m c i k f := Finset.sum_comm
    _ = ∑ i ∈ I, ∑ f ∈ F, ∑ k ∈ W, ∑ c ∈ C, ∑ m ∈ M, g m c i k f := Finset.sum_congr rfl fun i _ => ?_
  calc _ = ∑ c ∈ C, ∑ m ∈ M, ∑ f ∈ F, ∑ k ∈ W, g m c i k f :=
        Finset.sum_congr rfl fun c _ => Finset.sum_congr rfl fun m _ => Finset.sum_comm
    _ = ∑ c ∈ C, ∑ f ∈ F, ∑ m ∈ M, ∑ k ∈ W, g m c i k f := Finset.sum_congr rfl fun c _ => Finset.sum_comm
    _ = ∑ f ∈ F, ∑ c ∈ C, ∑ m ∈ M, ∑ k ∈ W, g m c i k f := Finset.sum_comm
    _ = ∑ f ∈ F, ∑ c ∈ C, ∑ k ∈ W, ∑ m ∈ M, g m c i k f := Finset.sum_congr rfl fun f _ => Finset.sum_congr rfl fun c _ => Finset.sum_comm
    _ = _ := Finset.sum_congr rfl fun f _ => Finset.sum_comm

end Verif.Conv
