import Verif.Pool.Lemmas
import Mathlib.Algebra.Order.Field.Rat

/-!
# C145: global pooling
-/

namespace Verif.Props.GlobalPool
open Verif.Pool

variable {K : Type} [Field K] [LinearOrder K]

/-- `places` are all indices, each once. -/
theorem places_all (axes p : List Nat) : p ∈ places axes ↔ Inside axes p := mem_places axes p

theorem places_once (axes : List Nat) : (places axes).Nodup ∧ (places axes).length = count axes := ⟨nodup_places axes, places_length axes⟩

/-- Feature `c` of the sum is the sum of feature `c` of all positions. -/
theorem sum (axes : List Nat) (size : Nat) (x : List Nat → K) :
    (pooling .sum axes size (fun p => some (x p))).length = size ∧
    ∀ c < size, (pooling .sum axes size (fun p => some (x p)))[c]? = some (some (((places axes).map (fun p => x (p ++ [c]))).sum)) := by
  refine ⟨by unfold pooling; rw [List.length_map, List.length_range], fun c hc => ?_⟩
  unfold pooling
  rw [List.getElem?_map, List.getElem?_range hc, Option.map_some, global_sum]

example : pooling .sum [2, 2] 1 (fun p => some ((p.getD 0 0 + 2 * p.getD 1 0 : Nat) : ℚ)) = [some 6] := by decide +kernel

/-- Likewise for products. -/
theorem product (axes : List Nat) (size : Nat) (x : List Nat → K) :
    (pooling .product axes size (fun p => some (x p))).length = size ∧
    ∀ c < size, (pooling .product axes size (fun p => some (x p)))[c]? = some (some (((places axes).map (fun p => x (p ++ [c]))).prod)) := by
  refine ⟨by unfold pooling; rw [List.length_map, List.length_range], fun c hc => ?_⟩
  unfold pooling
  rw [List.getElem?_map, List.getElem?_range hc, Option.map_some, global_product]

example : pooling .product [2, 2] 1 (fun p => some ((1 + p.getD 0 0 + 2 * p.getD 1 0 : Nat) : ℚ)) = [some 24] := by decide +kernel

/-- The mean of means is the mean of all positions. -/
theorem mean [IsStrictOrderedRing K] (axes : List Nat) (h : ∀ n ∈ axes, 0 < n) (size : Nat) (x : List Nat → K) :
    (pooling .mean axes size (fun p => some (x p))).length = size ∧
    ∀ c < size, ∃ m, (pooling .mean axes size (fun p => some (x p)))[c]? = some (some m) ∧ Mean ((places axes).map (fun p => x (p ++ [c]))) m := by
  refine ⟨by unfold pooling; rw [List.length_map, List.length_range], fun c hc => ?_⟩
  obtain ⟨m, h1, h2⟩ := global_mean axes h x c
  refine ⟨m, ?_, fun h0 => ?_, by rw [List.length_map, places_length]; exact h2⟩
  · unfold pooling
    rw [List.getElem?_map, List.getElem?_range hc, Option.map_some, h1]
  · have := congrArg List.length h0
    rw [List.length_map, places_length, List.length_nil] at this
    have := count_pos axes h
    omega

example : pooling .mean [2, 3] 1 (fun p => some ((p.getD 0 0 + 2 * p.getD 1 0 : Nat) : ℚ)) = [some (5 / 2)] := by decide +kernel

/-- The maximum of maxima is that of all positions. -/
theorem max (axes : List Nat) (h : ∀ n ∈ axes, 0 < n) (size : Nat) (x : List Nat → K) :
    (pooling .max axes size (fun p => some (x p))).length = size ∧
    ∀ c < size, ∃ m, (pooling .max axes size (fun p => some (x p)))[c]? = some (some m) ∧ Greatest ((places axes).map (fun p => x (p ++ [c]))) m := by
  refine ⟨by unfold pooling; rw [List.length_map, List.length_range], fun c hc => ?_⟩
  obtain ⟨m, h1, h2⟩ := global_max axes h x c
  refine ⟨m, ?_, h2⟩
  unfold pooling
  rw [List.getElem?_map, List.getElem?_range hc, Option.map_some, h1]

example : pooling .max [2, 3] 2 (fun p => some ((p.getD 0 0 + 2 * p.getD 1 0 : Nat) : ℚ)) = [some 5, some 5] := by decide +kernel

/-- Concatenation keeps all entries in order. -/
theorem concat (axes : List Nat) (size : Nat) (x : List Nat → K) :
    (pooling .concat axes size (fun p => some (x p))).length = count (axes ++ [size]) ∧
    ∀ p, Inside (axes ++ [size]) p → (pooling .concat axes size (fun p => some (x p)))[rank (axes ++ [size]) p]? = some (some (x p)) := by
  unfold pooling
  refine ⟨by rw [List.length_map, indices_length], fun p hp => ?_⟩
  rw [List.getElem?_map, indices_get _ p hp, Option.map_some]

/-- So does flattening, for all shapes. -/
theorem flatten (shape : List Nat) (x : List Nat → K) :
    (flatten shape (fun p => some (x p))).length = count shape ∧
    ∀ p, Inside shape p → (flatten shape (fun p => some (x p)))[rank shape p]? = some (some (x p)) := by
  unfold Pool.flatten
  by_cases h : shape = []
  · rw [if_pos h, h]
    refine ⟨rfl, fun p hp => ?_⟩
    cases p with
    | nil => rfl
    | cons => exact hp.elim
  · rw [if_neg h]
    refine ⟨by rw [List.length_map, indices_length], fun p hp => ?_⟩
    rw [List.getElem?_map, indices_get _ p hp, Option.map_some]

example : Inside [2, 3] [1, 2] ∧ rank [2, 3] [1, 2] = 5 := ⟨⟨by decide, by decide, trivial⟩, rfl⟩

end Verif.Props.GlobalPool
