import Verif.Conv.Spec
import Mathlib.Algebra.BigOperators.Intervals
import Mathlib.Algebra.BigOperators.Ring.Finset
import Mathlib.Tactic.Ring

/-!
# Lemmas on dense and convolutional layers
-/

namespace Verif.Conv

variable {K : Type} [CommRing K]

theorem upTo_eq (n : Nat) (f : Nat → K) : upTo n f = ∑ k ∈ Finset.range n, f k := by
  induction n with
  | zero => rfl
  | succ n ih => rw [upTo, ih, Finset.sum_range_succ]

theorem addBias_eq (bias : Option (Nat → K)) (c : Nat) (v : K) : addBias bias c v = v + biasOf bias c := by
  cases bias with
  | none => exact (add_zero v).symm
  | some b => rfl

theorem cell_eq (rows cols : Axis) (p : Padding) (inputs : Nat) (w : Nat → Nat → Nat → Nat → K) (x : Nat → Nat → Nat → K) (i j c : Nat) :
    cell rows cols p inputs w x i j c = ∑ k ∈ Finset.range rows.window, ∑ l ∈ Finset.range cols.window, ∑ f ∈ Finset.range inputs,
      padded rows cols p x (i * rows.stride + k * rows.dilation) (j * cols.stride + l * cols.dilation) f * w k l f c := by
  unfold cell
  rw [upTo_eq]
  refine Finset.sum_congr rfl fun k _ => ?_
  rw [upTo_eq]
  exact Finset.sum_congr rfl fun l _ => upTo_eq _ _

theorem range_get {β : Type} (n i : Nat) (h : i < n) (f : Nat → β) : ((List.range n).map f)[i]? = some (f i) := by
  rw [List.getElem?_map, List.getElem?_range h]; rfl

theorem conv2d_at (rows cols : Axis) (p : Padding) (inputs size : Nat) (w : Nat → Nat → Nat → Nat → K) (bias : Option (Nat → K)) (x : Nat → Nat → Nat → K)
    (i j c : Nat) (hi : i < rows.outputs p) (hj : j < cols.outputs p) (hc : c < size) :
    At (conv2d rows cols p inputs size w bias x) i j c (cell rows cols p inputs w x i j c + biasOf bias c) := by
  rw [← addBias_eq]
  exact ⟨_, _, range_get _ i hi _, range_get _ j hj _, range_get _ c hc _⟩

theorem At.unique {out : List (List (List K))} {i j c : Nat} {v v' : K} (h : At out i j c v) (h' : At out i j c v') : v = v' := by
  obtain ⟨l, e, h1, h2, h3⟩ := h
  obtain ⟨l', e', h1', h2', h3'⟩ := h'
  rw [h1] at h1'
  cases h1'
  rw [h2] at h2'
  cases h2'
  rw [h3] at h3'
  exact Option.some.inj h3'

theorem entry_inside (a : Axis) (p : Padding) (m : Nat) (h : m < a.size) : a.entry p (m + a.before p) = some m := by
  unfold Axis.entry
  rw [if_neg (by omega), Nat.add_sub_cancel, if_pos h]

theorem entry_some (a : Axis) (p : Padding) (r m : Nat) (h : a.entry p r = some m) : m < a.size ∧ r = m + a.before p := by
  unfold Axis.entry at h
  split at h
  · cases h
  · split at h
    · have := Option.some.inj h
      omega
    · cases h

theorem padded_pads (rows cols : Axis) (p : Padding) (x : Nat → Nat → Nat → K) :
    Pads rows.size cols.size (rows.before p) (cols.before p) x (padded rows cols p x) := by
  constructor
  · intro m n f hm hn
    unfold padded
    rw [entry_inside rows p m hm, entry_inside cols p n hn]
  · intro r s f h
    unfold padded
    cases hr : rows.entry p r with
    | none => rfl
    | some m =>
      cases hs : cols.entry p s with
      | none => rfl
      | some n =>
        obtain ⟨a1, a2⟩ := entry_some _ _ _ _ hr
        obtain ⟨b1, b2⟩ := entry_some _ _ _ _ hs
        exact absurd ⟨a2, b2⟩ (h m n a1 b1)

theorem Pads.unique {height width b d : Nat} {x y y' : Nat → Nat → Nat → K} (h : Pads height width b d x y) (h' : Pads height width b d x y') : y = y' := by
  funext r s f
  by_cases g : ∃ m n, m < height ∧ n < width ∧ r = m + b ∧ s = n + d
  · obtain ⟨m, n, hm, hn, e1, e2⟩ := g
    rw [e1, e2, h.inside m n f hm hn, h'.inside m n f hm hn]
  · have g' : ∀ m n, m < height → n < width → ¬(r = m + b ∧ s = n + d) := fun m n hm hn e => g ⟨m, n, hm, hn, e⟩
    rw [h.outside r s f g', h'.outside r s f g']

theorem padded_linear (rows cols : Axis) (p : Padding) (x x' : Nat → Nat → Nat → K) (a b : K) (r s f : Nat) :
    padded rows cols p (fun m n f => a * x m n f + b * x' m n f) r s f = a * padded rows cols p x r s f + b * padded rows cols p x' r s f := by
  unfold padded
  cases rows.entry p r with
  | none => simp only [mul_zero, add_zero]
  | some m =>
    cases cols.entry p s with
    | none => simp only [mul_zero, add_zero]
    | some n => rfl

theorem cell_linear (rows cols : Axis) (p : Padding) (inputs : Nat) (w : Nat → Nat → Nat → Nat → K) (x x' : Nat → Nat → Nat → K) (a b : K) (i j c : Nat) :
    cell rows cols p inputs w (fun m n f => a * x m n f + b * x' m n f) i j c = a * cell rows cols p inputs w x i j c + b * cell rows cols p inputs w x' i j c := by
  rw [cell_eq, cell_eq, cell_eq, Finset.mul_sum, Finset.mul_sum, ← Finset.sum_add_distrib]
  refine Finset.sum_congr rfl fun k _ => ?_
  rw [Finset.mul_sum, Finset.mul_sum, ← Finset.sum_add_distrib]
  refine Finset.sum_congr rfl fun l _ => ?_
  rw [Finset.mul_sum, Finset.mul_sum, ← Finset.sum_add_distrib]
  refine Finset.sum_congr rfl fun f _ => ?_
  rw [padded_linear]
  ring

theorem lt_div (n s i : Nat) (hs : 0 < s) : i < (n + (s - 1)) / s ↔ i * s < n := by
  rw [Nat.lt_iff_add_one_le, Nat.le_div_iff_mul_le hs, Nat.add_mul, Nat.one_mul]
  omega

end Verif.Conv
