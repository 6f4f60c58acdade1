import Verif.Conv.Lemmas
import Mathlib.Data.Int.Basic

/-!
# C148: dense and convolutional layers
-/

namespace Verif.Props.Convolution
open Verif.Conv

variable {K : Type} [CommRing K]

/-- Each output of a dense layer is the weighted sum of the inputs, and its bias. -/
theorem dense_value (inputs size : Nat) (w : Nat → Nat → K) (bias : Option (Nat → K)) (x : Nat → K) :
    (dense inputs size w bias x).length = size ∧
      ∀ c < size, (dense inputs size w bias x)[c]? = some ((∑ f ∈ Finset.range inputs, x f * w f c) + biasOf bias c) := by
  refine ⟨by rw [dense, List.length_map, List.length_range], fun c hc => ?_⟩
  rw [dense, range_get _ c hc, addBias_eq, upTo_eq]

example : dense 2 2 (fun f c => (f + 2 * c : Int)) (some (fun c => c)) (fun f => f + 1) = [2, 9] := by decide

/-- There are as many outputs as announced. -/
theorem shape (rows cols : Axis) (p : Padding) (inputs size : Nat) (w : Nat → Nat → Nat → Nat → K) (bias : Option (Nat → K)) (x : Nat → Nat → Nat → K) :
    HasShape (conv2d rows cols p inputs size w bias x) (rows.outputs p) (cols.outputs p) size := by
  refine ⟨by rw [conv2d, List.length_map, List.length_range], fun line h => ?_, fun line h cell h' => ?_⟩
  · obtain ⟨i, _, rfl⟩ := List.mem_map.1 h
    rw [List.length_map, List.length_range]
  · obtain ⟨i, _, rfl⟩ := List.mem_map.1 h
    obtain ⟨j, _, rfl⟩ := List.mem_map.1 h'
    rw [List.length_map, List.length_range]

example : conv2d ⟨1, 1, 1, 1⟩ ⟨3, 2, 1, 1⟩ .valid 1 1 (fun _ l _ _ => (l + 1 : Int)) none (fun _ n _ => n) = [[[2], [5]]] := by decide

/-- With padding there is an output for each multiple of the stride in the input, without padding for each window which fits. -/
theorem outputs (a : Axis) (h : a.Proper) (i : Nat) :
    (i < a.outputs .same ↔ i * a.stride < a.size) ∧ (i < a.outputs .valid ↔ i * a.stride + (a.window - 1) * a.dilation < a.size) := by
  obtain ⟨_, hs, _⟩ := h
  refine ⟨lt_div _ _ _ hs, ?_⟩
  rw [show a.outputs .valid = (a.size + 1 - a.span + (a.stride - 1)) / a.stride from rfl, lt_div _ _ _ hs, Axis.span]
  omega

example : (⟨7, 3, 2, 2⟩ : Axis).Proper := ⟨by decide, by decide, by decide⟩

/-- The zeros are distributed evenly, one more at the end if they are odd; there are none without padding. -/
theorem zeros (a : Axis) : a.before .valid = 0 ∧
    ∀ missing, missing = (a.outputs .same - 1) * a.stride + (a.window - 1) * a.dilation + 1 - a.size →
      a.before .same ≤ missing - a.before .same ∧ missing - a.before .same ≤ a.before .same + 1 := by
  refine ⟨rfl, fun missing h => ?_⟩
  rw [show a.before .same = ((a.outputs .same - 1) * a.stride + a.span - a.size) / 2 from rfl, Axis.span, ← Nat.add_assoc, ← h]
  omega

example : (⟨4, 4, 1, 1⟩ : Axis).before .same = 1 := by decide

/-- Each output is the sum over window and features of weight and padded input, and its bias. -/
theorem value (rows cols : Axis) (p : Padding) (inputs size : Nat) (w : Nat → Nat → Nat → Nat → K) (bias : Option (Nat → K)) (x y : Nat → Nat → Nat → K)
    (hy : Pads rows.size cols.size (rows.before p) (cols.before p) x y) (i j c : Nat) (hi : i < rows.outputs p) (hj : j < cols.outputs p) (hc : c < size) :
    At (conv2d rows cols p inputs size w bias x) i j c ((∑ k ∈ Finset.range rows.window, ∑ l ∈ Finset.range cols.window, ∑ f ∈ Finset.range inputs,
      y (i * rows.stride + k * rows.dilation) (j * cols.stride + l * cols.dilation) f * w k l f c) + biasOf bias c) := by
  rw [hy.unique (padded_pads rows cols p x), ← cell_eq]
  exact conv2d_at rows cols p inputs size w bias x i j c hi hj hc

example : ∃ y, Pads 2 3 1 1 (fun m n _ => (m + n : Int)) y := ⟨_, padded_pads ⟨2, 3, 1, 1⟩ ⟨3, 3, 1, 1⟩ .same _⟩

/-- Without bias, the layer is linear. -/
theorem linear (rows cols : Axis) (p : Padding) (inputs size : Nat) (w : Nat → Nat → Nat → Nat → K) (x x' : Nat → Nat → Nat → K) (a b : K) (i j c : Nat) (v v' : K)
    (h : At (conv2d rows cols p inputs size w none x) i j c v) (h' : At (conv2d rows cols p inputs size w none x') i j c v')
    (hi : i < rows.outputs p) (hj : j < cols.outputs p) (hc : c < size) :
    At (conv2d rows cols p inputs size w none (fun m n f => a * x m n f + b * x' m n f)) i j c (a * v + b * v') := by
  have z : biasOf (K := K) none c = 0 := rfl
  have e := h.unique (conv2d_at rows cols p inputs size w none x i j c hi hj hc)
  have e' := h'.unique (conv2d_at rows cols p inputs size w none x' i j c hi hj hc)
  have g := conv2d_at rows cols p inputs size w none (fun m n f => a * x m n f + b * x' m n f) i j c hi hj hc
  rw [z, add_zero] at e e' g
  rw [e, e', ← cell_linear]
  exact g

example : At (conv2d ⟨1, 1, 1, 1⟩ ⟨3, 2, 1, 1⟩ .valid 1 1 (fun _ l _ _ => (l + 1 : Int)) none (fun _ n _ => n)) 0 1 0 5 :=
  ⟨[[2], [5]], [5], by decide, by decide, by decide⟩

/-- Each output depends on the entries of its window only. -/
theorem window_only (rows cols : Axis) (p : Padding) (inputs size : Nat) (w : Nat → Nat → Nat → Nat → K) (bias : Option (Nat → K)) (x x' : Nat → Nat → Nat → K)
    (i j c : Nat) (hi : i < rows.outputs p) (hj : j < cols.outputs p) (hc : c < size)
    (hx : ∀ m n f, InWindow rows p i m → InWindow cols p j n → f < inputs → x m n f = x' m n f) (v : K)
    (h : At (conv2d rows cols p inputs size w bias x) i j c v) : At (conv2d rows cols p inputs size w bias x') i j c v := by
  rw [h.unique (conv2d_at rows cols p inputs size w bias x i j c hi hj hc)]
  have e : cell rows cols p inputs w x i j c = cell rows cols p inputs w x' i j c := by
    rw [cell_eq, cell_eq]
    refine Finset.sum_congr rfl fun k hk => Finset.sum_congr rfl fun l hl => Finset.sum_congr rfl fun f hf => ?_
    congr 1
    unfold padded
    cases hr : rows.entry p (i * rows.stride + k * rows.dilation) with
    | none => rfl
    | some m =>
      cases hs : cols.entry p (j * cols.stride + l * cols.dilation) with
      | none => rfl
      | some n =>
        obtain ⟨a1, a2⟩ := entry_some _ _ _ _ hr
        obtain ⟨b1, b2⟩ := entry_some _ _ _ _ hs
        exact hx m n f ⟨a1, k, Finset.mem_range.1 hk, a2⟩ ⟨b1, l, Finset.mem_range.1 hl, b2⟩ (Finset.mem_range.1 hf)
  rw [e]
  exact conv2d_at rows cols p inputs size w bias x' i j c hi hj hc

example : InWindow ⟨5, 3, 2, 1⟩ .same 1 2 := ⟨by decide, 1, by decide, by decide⟩

/-- Without padding, moving the input by the strides moves the output by one. -/
theorem shift (rows cols : Axis) (hr : rows.Proper) (hc' : cols.Proper) (inputs size : Nat) (w : Nat → Nat → Nat → Nat → K) (bias : Option (Nat → K))
    (x : Nat → Nat → Nat → K) (i j c : Nat) (hi : i + 1 < rows.outputs .valid) (hj : j + 1 < cols.outputs .valid) (hc : c < size) (v : K) :
    At (conv2d rows cols .valid inputs size w bias x) (i + 1) (j + 1) c v ↔
      At (conv2d rows cols .valid inputs size w bias (fun m n f => x (m + rows.stride) (n + cols.stride) f)) i j c v := by
  have ri := ((outputs rows hr (i + 1)).2).1 hi
  have cj := ((outputs cols hc' (j + 1)).2).1 hj
  have e : cell rows cols .valid inputs w x (i + 1) (j + 1) c = cell rows cols .valid inputs w (fun m n f => x (m + rows.stride) (n + cols.stride) f) i j c := by
    rw [cell_eq, cell_eq]
    refine Finset.sum_congr rfl fun k hk => Finset.sum_congr rfl fun l hl => Finset.sum_congr rfl fun f _ => ?_
    congr 1
    have k1 : k * rows.dilation ≤ (rows.window - 1) * rows.dilation := Nat.mul_le_mul_right _ (by have := Finset.mem_range.1 hk; omega)
    have l1 : l * cols.dilation ≤ (cols.window - 1) * cols.dilation := Nat.mul_le_mul_right _ (by have := Finset.mem_range.1 hl; omega)
    rw [Nat.add_mul, Nat.one_mul] at ri cj
    have p1 := (padded_pads rows cols .valid x).inside ((i + 1) * rows.stride + k * rows.dilation) ((j + 1) * cols.stride + l * cols.dilation) f
      (by rw [Nat.add_mul, Nat.one_mul]; omega) (by rw [Nat.add_mul, Nat.one_mul]; omega)
    have p2 := (padded_pads rows cols .valid (fun m n f => x (m + rows.stride) (n + cols.stride) f)).inside (i * rows.stride + k * rows.dilation)
      (j * cols.stride + l * cols.dilation) f (by omega) (by omega)
    simp only [(zeros rows).1, (zeros cols).1, Nat.add_zero] at p1 p2
    rw [p1, p2]
    congr 1
    · rw [Nat.add_mul, Nat.one_mul]; omega
    · rw [Nat.add_mul, Nat.one_mul]; omega
  have g := conv2d_at rows cols .valid inputs size w bias x (i + 1) (j + 1) c hi hj hc
  have g' := conv2d_at rows cols .valid inputs size w bias (fun m n f => x (m + rows.stride) (n + cols.stride) f) i j c (by omega) (by omega) hc
  rw [← e] at g'
  exact ⟨fun h => h.unique g ▸ g', fun h => h.unique g' ▸ g⟩

example : 0 + 1 < (⟨5, 3, 2, 1⟩ : Axis).outputs .valid := by decide

/-- The one-dimensional layer is the two-dimensional one for a single row. -/
theorem one_dimension (a : Axis) (p : Padding) (inputs size : Nat) (w : Nat → Nat → Nat → K) (bias : Option (Nat → K)) (x : Nat → Nat → K) :
    conv2d ⟨1, 1, 1, 1⟩ a p inputs size (fun _ => w) bias (fun _ => x) = [conv1d a p inputs size w bias x] := by
  have h : (⟨1, 1, 1, 1⟩ : Axis).outputs p = 1 := by cases p <;> decide
  unfold conv1d conv2d
  rw [h]
  rfl

example : conv1d ⟨3, 2, 1, 1⟩ .valid 1 1 (fun l _ _ => (l + 1 : Int)) none (fun n _ => n) = [[2], [5]] := by decide

/-- A linear layer applies the same dense layer to each position of an image. -/
theorem linear_image (height width inputs size : Nat) (w : Nat → Nat → K) (bias : Option (Nat → K)) (x : Nat → Nat → Nat → K) :
    linear2 height width inputs size w bias x =
      (List.range height).map fun i => (List.range width).map fun j => dense inputs size w bias (x i j) := by
  have o : ∀ n, (⟨n, 1, 1, 1⟩ : Axis).outputs .same = n := fun n => Nat.div_one n
  have b : ∀ n, (⟨n, 1, 1, 1⟩ : Axis).before .same = 0 := fun n => by
    show (((⟨n, 1, 1, 1⟩ : Axis).outputs .same - 1) * 1 + (0 * 1 + 1) - n) / 2 = 0
    rw [o]
    omega
  unfold linear2 conv2d dense
  rw [o, o]
  refine List.map_congr_left fun i hi => List.map_congr_left fun j hj => List.map_congr_left fun c _ => ?_
  have hp : ∀ f, padded ⟨height, 1, 1, 1⟩ ⟨width, 1, 1, 1⟩ .same x (i * 1 + 0 * 1) (j * 1 + 0 * 1) f = x i j f := fun f => by
    have := (padded_pads ⟨height, 1, 1, 1⟩ ⟨width, 1, 1, 1⟩ .same x).inside i j f (List.mem_range.1 hi) (List.mem_range.1 hj)
    rw [b, b] at this
    rw [← this]
    congr 1 <;> omega
  rw [addBias_eq, addBias_eq, cell_eq, upTo_eq]
  show (∑ k ∈ Finset.range 1, ∑ l ∈ Finset.range 1, _) + _ = _
  rw [Finset.sum_range_one, Finset.sum_range_one]
  congr 1
  exact Finset.sum_congr rfl fun f _ => by rw [hp]

example : linear2 1 2 2 1 (fun f _ => (f + 1 : Int)) none (fun _ n f => n + f) = [[[2], [5]]] := by decide

/-- A linear layer applies the same dense layer to each position of a sequence. -/
theorem linear_sequence (length inputs size : Nat) (w : Nat → Nat → K) (bias : Option (Nat → K)) (x : Nat → Nat → K) :
    linear1 length inputs size w bias x = (List.range length).map fun j => dense inputs size w bias (x j) := by
  have h := linear_image 1 length inputs size w bias (fun _ => x)
  have g := one_dimension ⟨length, 1, 1, 1⟩ .same inputs size (fun _ => w) bias x
  unfold linear2 at h
  rw [h] at g
  exact (List.cons.inj g).1.symm

example : linear1 2 2 1 (fun f _ => (f + 1 : Int)) none (fun n f => n + f) = [[2], [5]] := by decide

end Verif.Props.Convolution
