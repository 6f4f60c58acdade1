import Verif.Pix.Spec
import Mathlib.Tactic.Ring
import Mathlib.Tactic.Linarith
import Mathlib.Tactic.FieldSimp
import Mathlib.Algebra.Order.Field.Rat

/-!
# C140: the embedding layer

Every value of a discrete state has an embedding of its own.
-/

namespace Verif.Props.Embedding

open Verif.Pix

variable {K : Type} [Field K] [LinearOrder K]

/-- By default there is one embedding for each value. -/
theorem default_number (i : Input) (n : Nat) (hn : 0 < n) (h : i.count = some n) : embeddings none i = .ok n := by
  cases i with
  | bool => cases h; rfl
  | int v =>
    cases h
    unfold embeddings
    simp only
    rw [if_pos hn]
  | float => cases h

example : embeddings none (.int (some 5)) = .ok 5 ∧ embeddings none .bool = .ok 2 := by decide

/-- The number given is used for discrete states, and has to be positive. -/
theorem given_number (i : Input) (z : Int) (hi : i ≠ .float) : embeddings (some z) i = if 0 < z then .ok z.toNat else .error .tensorforce := by
  cases i with
  | bool => rfl
  | int v => rfl
  | float => exact (hi rfl).elim

example : embeddings (some 7) (.int (some 5)) = .ok 7 := by decide

/-- Continuous states, and states without values or without number of values if no number of embeddings is given, are rejected. -/
theorem rejected (num : Option Int) : embeddings num .float = .error .tensorforce ∧ embeddings none (.int none) = .error .tensorforce ∧
    embeddings none (.int (some 0)) = .error .tensorforce := ⟨rfl, rfl, rfl⟩

/-- The result for a value: its own row of the matrix, clipped, plus the bias. -/
theorem own_row (norm : List K → K) (maxNorm : Option K) (weights : List (List K)) (bias : Option (List K)) (x : Nat) (v : List K) (h : weights[x]? = some v) :
    lookup norm maxNorm weights bias x = .ok (match bias with
      | none => clip norm maxNorm v
      | some b => List.zipWith (· + ·) (clip norm maxNorm v) b) := by
  unfold lookup
  rw [if_neg (by omega), Int.toNat_natCast, h]
  cases bias <;> rfl

example : (lookup (fun _ => 0) none [[1, 2], [3, 4]] (some [10, 20]) 1 : Except Err (List ℚ)) = .ok [13, 24] := by decide +kernel

/-- Other rows have no effect. -/
theorem independent (norm : List K → K) (maxNorm : Option K) (weights weights' : List (List K)) (bias : Option (List K)) (x : Int)
    (h : weights[x.toNat]? = weights'[x.toNat]?) : lookup norm maxNorm weights bias x = lookup norm maxNorm weights' bias x := by
  unfold lookup
  rw [h]

example : ([[1], [2]] : List (List ℚ))[(1 : Int).toNat]? = ([[7], [2]] : List (List ℚ))[(1 : Int).toNat]? := by decide +kernel

/-- All values of a state are embedded, in order and with the announced size, if there are enough embeddings, in particular by default. Missing for the
property: fewer embeddings than values are accepted too, see `few_violation`. -/
theorem embedded_partial (norm : List K → K) (maxNorm : Option K) (weights : List (List K)) (bias : Option (List K)) (num : Option Int) (i : Input) (n m : Nat) (size : Int)
    (hn : 0 < n) (hc : i.count = some n) (hm : embeddings num i = .ok m) (hk : ∀ z, num = some z → (n : Int) ≤ z) (hw : weights.length = m)
    (hs : ∀ v ∈ weights, v.length = vectorSize size) (hb : ∀ b, bias = some b → b.length = vectorSize size) (xs : List Int) (hx : ∀ x ∈ xs, i.Has x) :
    ∃ vs, lookupAll norm maxNorm weights bias xs = .ok vs ∧ vs.length = xs.length ∧ (∀ v ∈ vs, v.length = vectorSize size) ∧
      ∀ (k : Nat) (x : Int), xs[k]? = some x → ∃ v, vs[k]? = some v ∧ lookup norm maxNorm weights bias x = .ok v := by
  have hnm : n ≤ m := by
    cases num with
    | none =>
      rw [default_number i n hn hc] at hm
      cases hm
      exact Nat.le_refl _
    | some z =>
      have hi : i ≠ .float := by
        intro e
        rw [e] at hc
        cases hc
      rw [given_number i z hi] at hm
      have := hk z rfl
      split at hm
      · cases hm
        omega
      · cases hm
  have hr : ∀ x, i.Has x → 0 ≤ x ∧ x.toNat < weights.length := by
    intro x hx
    cases i with
    | bool =>
      cases hc
      have hx : x = 0 ∨ x = 1 := hx
      rcases hx with rfl | rfl
      · exact ⟨by omega, by omega⟩
      · exact ⟨by omega, by omega⟩
    | int v =>
      have hc : v = some n := hc
      subst hc
      have hx : 0 ≤ x ∧ x < n := hx
      exact ⟨hx.1, by omega⟩
    | float => exact hx.elim
  have one : ∀ x, i.Has x → ∃ v, lookup norm maxNorm weights bias x = .ok v ∧ v.length = vectorSize size := by
    intro x hx
    obtain ⟨h0, h1⟩ := hr x hx
    have hv := hs _ (List.getElem_mem h1)
    have hcl : (clip norm maxNorm weights[x.toNat]).length = vectorSize size := by
      unfold clip
      split
      · exact hv
      · rw [List.length_map]
        exact hv
    have hl := own_row norm maxNorm weights bias x.toNat _ (List.getElem?_eq_getElem h1)
    rw [Int.toNat_of_nonneg h0] at hl
    refine ⟨_, hl, ?_⟩
    cases bias with
    | none => exact hcl
    | some b =>
      simp only
      rw [List.length_zipWith, hcl, hb b rfl, Nat.min_self]
  induction xs with
  | nil => exact ⟨[], rfl, rfl, nofun, nofun⟩
  | cons x xs ih =>
    obtain ⟨v, hv, hl⟩ := one x (hx x List.mem_cons_self)
    obtain ⟨vs, h1, h2, h3, h4⟩ := ih (fun y hy => hx y (List.mem_cons_of_mem _ hy))
    refine ⟨v :: vs, ?_, ?_, ?_, ?_⟩
    · unfold lookupAll
      rw [hv, h1]
    · rw [List.length_cons, List.length_cons, h2]
    · intro u hu
      rcases List.mem_cons.1 hu with rfl | hu
      · exact hl
      · exact h3 u hu
    · intro k y hk'
      cases k with
      | zero =>
        cases hk'
        exact ⟨v, rfl, hv⟩
      | succ k => exact h4 k y hk'

example : (lookupAll (fun _ => 0) none [[1, 2], [3, 4]] none [1, 0, 1] : Except Err (List (List ℚ))) = .ok [[3, 4], [1, 2], [3, 4]] := by decide +kernel

/-- The announced shape: an axis for the embedding is added, unless its size is zero. -/
theorem shape (size : Nat) (s : List Nat) : embedShape size s = s ++ (if size = 0 then [] else [size]) ∧ vectorSize size = if size = 0 then 1 else size := by
  unfold embedShape vectorSize
  constructor
  · by_cases h : size = 0
    · simp [h]
    · rw [if_neg (by omega), if_neg h, show (max (size : Int) 1).toNat = size by omega]
  · split <;> omega

example : embedShape 4 [2, 3] = [2, 3, 4] ∧ embedShape 0 [2, 3] = [2, 3] := by decide

/-- Embeddings with a larger norm than allowed have exactly this norm, and others are not changed; for a norm which is homogeneous. -/
theorem clipped [IsStrictOrderedRing K] (norm : List K → K) (hnorm : ∀ (c : K) (v : List K), 0 ≤ c → norm (v.map (fun x => x * c)) = norm v * c) (m : K) (hm : 0 < m)
    (v : List K) : (norm v ≤ m → clip norm (some m) v = v) ∧ (m < norm v → norm (clip norm (some m) v) = m) := by
  unfold clip
  simp only
  constructor
  · intro h
    rw [max_eq_right h]
    conv => rhs; rw [← List.map_id v]
    refine List.map_congr_left (fun x _ => ?_)
    have : m ≠ 0 := ne_of_gt hm
    rw [mul_div_assoc, div_self this, mul_one]
    rfl
  · intro h
    rw [max_eq_left h.le]
    have h0 : 0 < norm v := lt_trans hm h
    have := hnorm (m / norm v) v (div_nonneg hm.le h0.le)
    rw [show (fun x : K => x * m / norm v) = (fun x => x * (m / norm v)) from funext (fun x => mul_div_assoc x m (norm v)), this]
    field_simp

example : clip (fun v => (v.map (fun x => |x|)).sum) (some 2) ([3, -1] : List ℚ) = [3 / 2, -1 / 2] := by decide +kernel

/-- Fewer embeddings than values are accepted, although the code contains a check, and the remaining values raise an exception. -/
theorem few_violation : embeddings (some 2) (.int (some 5)) = .ok 2 ∧ embeddings (some 1) .bool = .ok 1 ∧
    (lookup (fun _ => 0) none [[1], [2]] none 4 : Except Err (List ℚ)) = .error .tensorflow := by decide +kernel

/-- Negative sizes are accepted, and are one. -/
theorem size_violation : embedShape (-3) [2] = [2, 1] := by decide

/-- States without number of values are accepted if a number of embeddings is given, and values which are negative or too large raise an exception. -/
theorem unbounded_violation : embeddings (some 2) (.int none) = .ok 2 ∧ Input.Has (.int none) (-1) ∧
    (lookup (fun _ => 0) none [[1], [2]] none (-1) : Except Err (List ℚ)) = .error .tensorflow := ⟨by decide, trivial, by decide +kernel⟩

end Verif.Props.Embedding
