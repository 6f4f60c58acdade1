import Verif.Pool.Model
import Mathlib.Algebra.BigOperators.Group.List.Basic

/-!
# Terms for the theorems on pooling
-/

namespace Verif.Pool

instance [DecidableEq α] : DecidableEq (Except Err α)
  | .ok a, .ok b => if h : a = b then .isTrue (h ▸ rfl) else .isFalse (fun h' => h (by cases h'; rfl))
  | .error a, .error b => if h : a = b then .isTrue (h ▸ rfl) else .isFalse (fun h' => h (by cases h'; rfl))
  | .ok _, .error _ => .isFalse nofun
  | .error _, .ok _ => .isFalse nofun

/-- Each index is less than the size of its axis. -/
def Inside : List Nat → List Nat → Prop
  | [], [] => True
  | n :: axes, i :: p => i < n ∧ Inside axes p
  | _, _ => False

/-- All indices; see `places_all` and `places_once`. -/
def places : List Nat → List (List Nat)
  | [] => [[]]
  | n :: axes => (places axes).flatMap (fun p => (List.range n).map (· :: p))

/-- Number of indices. -/
def count (axes : List Nat) : Nat := axes.foldr (· * ·) 1

/-- Number of indices before the given one. -/
def rank : List Nat → List Nat → Nat
  | _ :: axes, i :: p => i * count axes + rank axes p
  | _, _ => 0

section
variable {K : Type} [Field K] [LinearOrder K]

/-- `v` is the greatest of the numbers. -/
def Greatest (l : List K) (v : K) : Prop := v ∈ l ∧ ∀ u ∈ l, u ≤ v

/-- `v` is the mean of the numbers. -/
def Mean (l : List K) (v : K) : Prop := l ≠ [] ∧ v * (l.length : K) = l.sum

/-- The value of a reduction of numbers. -/
def Reduces (r : Local) (l : List K) (v : K) : Prop :=
  match r with
  | .average => Mean l v
  | .max => Greatest l v
  | .unknown => False

/-- Whether entry `j` of `n` belongs to the window of output `i`, the windows beginning `before` entries earlier. -/
def Covers (window stride before n i j : Nat) : Prop := j < n ∧ i * stride ≤ j + before ∧ j + before < i * stride + window

end

end Verif.Pool
