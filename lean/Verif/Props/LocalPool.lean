import Verif.Pool.Lemmas
import Mathlib.Algebra.Order.Field.Rat

/-!
# C146: local pooling
-/

namespace Verif.Props.LocalPool
open Verif.Pool

variable {K : Type} [Field K] [LinearOrder K]

/-- Entries of a window, each once. -/
def InWindow (l : List Nat) (a : Axis) (p : Padding) (i : Nat) : Prop := l.Nodup ∧ ∀ j, j ∈ l ↔ Covers a.window a.stride (a.before p) a.size i j

/-- For positive windows and strides, each output is the mean or the maximum of the entries in its window. With padding "same" there always are some. -/
theorem reduced [IsStrictOrderedRing K] (r : Local) (hr : r ≠ .unknown) (p : Padding) (rows cols : Axis) (h1 : 0 < rows.window) (h2 : 0 < rows.stride)
    (h3 : 0 < cols.window) (h4 : 0 < cols.stride) (x : Nat → Nat → K) :
    ∃ out, pool r p rows cols x = .ok out ∧ out.length = rows.outputs p ∧
      ∀ i < rows.outputs p, ∃ line, out[i]? = some line ∧ line.length = cols.outputs p ∧
        ∀ j < cols.outputs p, ∃ (v : K) (ms ns : List Nat), line[j]? = some (some v) ∧ InWindow ms rows p i ∧ InWindow ns cols p j ∧
          Reduces r (ms.flatMap (fun m => ns.map (fun n => x m n))) v := by
  have some_entry : ∀ (a : Axis), 0 < a.window → 0 < a.stride → ∀ i < a.outputs p, ∃ j, j ∈ a.entries p i := by
    intro a hw hs i hi
    cases p with
    | same =>
      obtain ⟨j, hj⟩ := exists_same a hw hs i hi
      exact ⟨j, (mem_entries _ a i j).2 hj⟩
    | valid => exact ⟨i * a.stride, (mem_entries _ a i _).2 ((covers_valid a hs i hi _).2 ⟨Nat.le_refl _, by omega⟩)⟩
  refine ⟨_, if_neg (by omega), by rw [List.length_map, List.length_range], fun i hi => ?_⟩
  refine ⟨_, by rw [List.getElem?_map, List.getElem?_range hi, Option.map_some], by rw [List.length_map, List.length_range], fun j hj => ?_⟩
  obtain ⟨m, hm⟩ := some_entry rows h1 h2 i hi
  obtain ⟨n, hn⟩ := some_entry cols h3 h4 j hj
  obtain ⟨v, e, hv⟩ := window_reduces r hr ((rows.entries p i).flatMap (fun m => (cols.entries p j).map (fun n => x m n)))
    (fun h0 => by
      have : x m n ∈ (rows.entries p i).flatMap (fun m => (cols.entries p j).map (fun n => x m n)) :=
        List.mem_flatMap.2 ⟨m, hm, List.mem_map.2 ⟨n, hn, rfl⟩⟩
      rw [h0] at this
      cases this)
  exact ⟨v, _, _, by rw [List.getElem?_map, List.getElem?_range hj, Option.map_some, e], ⟨nodup_entries p rows i, mem_entries p rows i⟩,
    ⟨nodup_entries p cols j, mem_entries p cols j⟩, hv⟩

example : pool .average .same ⟨1, 1, 1⟩ ⟨5, 2, 2⟩ (fun _ n => (n : ℚ)) = .ok [[some (1 / 2), some (5 / 2), some 4]] := by decide +kernel
example : pool .max .same ⟨3, 2, 2⟩ ⟨3, 2, 1⟩ (fun m n => (m * n : ℚ)) = .ok [[some 1, some 2, some 2], [some 2, some 4, some 4]] := by decide +kernel

/-- So the outputs stay within the bounds of the input, which are announced. -/
theorem within [IsStrictOrderedRing K] (r : Local) (hr : r ≠ .unknown) (p : Padding) (rows cols : Axis) (h1 : 0 < rows.window) (h2 : 0 < rows.stride)
    (h3 : 0 < cols.window) (h4 : 0 < cols.stride) (x : Nat → Nat → K) (lo hi : K) (hx : ∀ m n, m < rows.size → n < cols.size → lo ≤ x m n ∧ x m n ≤ hi)
    (out : List (List (Option K))) (ho : pool r p rows cols x = .ok out) : ∀ line ∈ out, ∀ v ∈ line, ∃ u, v = some u ∧ lo ≤ u ∧ u ≤ hi := by
  intro line hl v hv
  obtain ⟨out', e, g1, g⟩ := reduced r hr p rows cols h1 h2 h3 h4 x
  have ee : out = out' := by rw [ho] at e; exact Except.ok.inj e
  subst ee
  obtain ⟨i, hi', el⟩ := List.mem_iff_getElem.1 hl
  obtain ⟨line', e1, g2, g3⟩ := g i (by omega)
  rw [List.getElem?_eq_getElem hi', el] at e1
  have := Option.some.inj e1
  subst this
  obtain ⟨j, hj, ev⟩ := List.mem_iff_getElem.1 hv
  obtain ⟨u, ms, ns, e2, w1, w2, w3⟩ := g3 j (by omega)
  rw [List.getElem?_eq_getElem hj, ev] at e2
  refine ⟨u, Option.some.inj e2, reduces_bounds r _ u lo hi w3 fun t ht => ?_⟩
  obtain ⟨m, hm, ht⟩ := List.mem_flatMap.1 ht
  obtain ⟨n, hn, rfl⟩ := List.mem_map.1 ht
  exact hx m n ((w1.2 m).1 hm).1 ((w2.2 n).1 hn).1

/-- With padding "same" and windows which are not smaller than the stride each entry has an effect. -/
theorem covering (a : Axis) (hs : 0 < a.stride) (hw : a.stride ≤ a.window) (j : Nat) (hj : j < a.size) :
    ∃ i < a.outputs .same, j ∈ a.entries .same i := by
  obtain ⟨i, hi, h⟩ := covered_same a hs hw j hj
  exact ⟨i, hi, (mem_entries _ a i j).2 h⟩

example : (⟨5, 2, 2⟩ : Axis).entries .same 2 = [4] := by decide

/-- With padding "valid" the windows are complete and begin at the multiples of the stride, and there are as many as fit. -/
theorem complete (a : Axis) (hw : 0 < a.window) (hs : 0 < a.stride) (i : Nat) :
    (i < a.outputs .valid ↔ i * a.stride + a.window ≤ a.size) ∧
    (i < a.outputs .valid → ∀ j, j ∈ a.entries .valid i ↔ i * a.stride ≤ j ∧ j < i * a.stride + a.window) := by
  refine ⟨?_, fun hi j => (mem_entries _ a i j).trans (covers_valid a hs i hi j)⟩
  unfold Axis.outputs
  dsimp only
  rw [← Nat.succ_le_iff, Nat.le_div_iff_mul_le hs, Nat.succ_mul]
  omega

/-- With padding "same" there are as many outputs as multiples of the stride which are less than the size; the windows begin at them, moved by half of the
missing entries. -/
theorem same (a : Axis) (hs : 0 < a.stride) (i : Nat) :
    (i < a.outputs .same ↔ i * a.stride < a.size) ∧
    ∃ left right, (left = right ∨ left + 1 = right) ∧
      (left + right = (a.outputs .same - 1) * a.stride + a.window - a.size) ∧
      ∀ j, j ∈ a.entries .same i ↔ Covers a.window a.stride left a.size i j := by
  refine ⟨?_, a.before .same, (a.outputs .same - 1) * a.stride + a.window - a.size - a.before .same, ?_, ?_, mem_entries _ a i⟩
  · unfold Axis.outputs
    dsimp only
    rw [← Nat.succ_le_iff, Nat.le_div_iff_mul_le hs, Nat.succ_mul]
    omega
  · have := before_same a
    omega
  · have := before_same a
    omega

/-- One dimension is one row. -/
theorem one_dimension (r : Local) (w s : Nat) (p : Padding) (n : Nat) (x : Nat → K) (hr : r ≠ .unknown) (hw : 0 < w) (hs : 0 < s) :
    ∃ out, pool1d r (.one w) (.one s) p n x = .ok out ∧ pool r p ⟨1, 1, 1⟩ ⟨n, w, s⟩ (fun _ => x) = .ok [out] := by
  have h1 : (⟨1, 1, 1⟩ : Axis).outputs p = 1 := by cases p <;> rfl
  have e : ∃ out, pool r p ⟨1, 1, 1⟩ ⟨n, w, s⟩ (fun _ => x) = .ok [out] := by
    unfold pool
    rw [if_neg (by dsimp only; omega), h1]
    exact ⟨_, rfl⟩
  obtain ⟨out, e⟩ := e
  refine ⟨out, ?_, e⟩
  unfold pool1d
  rw [if_neg hr]
  dsimp only
  rw [e]
  rfl

/-- Single numbers and pairs give the window and stride of rows and columns. -/
theorem arguments_partial (r : Local) (hr : r ≠ .unknown) (p : Padding) (h w : Nat) (x : Nat → Nat → K) (a b c d : Nat) :
    pool2d r (.one a) (.one c) p h w x = pool r p ⟨h, a, c⟩ ⟨w, a, c⟩ x ∧
    pool2d r (.many [a, b]) (.one c) p h w x = pool r p ⟨h, a, c⟩ ⟨w, b, c⟩ x ∧
    pool2d r (.many [a, b]) (.many [c, d]) p h w x = pool r p ⟨h, a, c⟩ ⟨w, b, d⟩ x := by
  refine ⟨?_, ?_, ?_⟩ <;> exact if_neg hr

/-- Other reductions, windows which are no pairs, and zero, are refused. -/
theorem rejected (r : Local) (w s : Arg) (p : Padding) (m n : Nat) (x : Nat → Nat → K) (y : Nat → K) :
    pool2d .unknown w s p m n x = .error .tensorforce ∧ pool1d .unknown w s p n y = .error .tensorforce ∧
    (∀ l, l.length ≠ 2 → pool2d r (.many l) s p m n x = .error .tensorforce) ∧
    (∀ l, pool1d r (.many l) s p n y = .error .tensorforce) ∧
    (∀ a l, pool1d r (.one a) (.many l) p n y = .error .tensorforce) ∧
    ∀ rows cols : Axis, rows.window = 0 ∨ rows.stride = 0 ∨ cols.window = 0 ∨ cols.stride = 0 → pool r p rows cols x = .error .tensorflow := by
  refine ⟨rfl, rfl, fun l hl => ?_, fun l => ?_, fun a l => ?_, fun rows cols h => if_pos h⟩
  · unfold pool2d
    by_cases hr : r = .unknown
    · rw [if_pos hr]
    · rw [if_neg hr]
      match l with
      | [] => rfl
      | [_] => rfl
      | [_, _] => exact absurd rfl hl
      | _ :: _ :: _ :: _ => rfl
  · unfold pool1d
    by_cases hr : r = .unknown
    · rw [if_pos hr]
    · rw [if_neg hr]
  · unfold pool1d
    by_cases hr : r = .unknown
    · rw [if_pos hr]
    · rw [if_neg hr]

/-- A pair of strides for a single window is documented, but always a `TypeError`. -/
theorem stride_violation (r : Local) (hr : r ≠ .unknown) (a c d : Nat) (p : Padding) (m n : Nat) (x : Nat → Nat → K) :
    pool2d r (.one a) (.many [c, d]) p m n x = .error .type_ := if_neg hr

/-- More than two strides are accepted, and one is an `IndexError`. -/
theorem length_violation (r : Local) (hr : r ≠ .unknown) (a b c d e : Nat) (p : Padding) (m n : Nat) (x : Nat → Nat → K) :
    pool2d r (.many [a, b]) (.many [c, d, e]) p m n x = pool2d r (.many [a, b]) (.many [c, d]) p m n x ∧
    pool2d r (.many [a, b]) (.many [c]) p m n x = .error .index :=
  ⟨(if_neg hr).trans (if_neg hr).symm, if_neg hr⟩

end Verif.Props.LocalPool
