import Verif.Init.Model
import Mathlib.Algebra.BigOperators.Group.Finset.Basic

/-!
# Terms for the theorems on initial values
-/

namespace Verif.Init

instance [DecidableEq α] : DecidableEq (Except Err α)
  | .ok a, .ok b => if h : a = b then .isTrue (h ▸ rfl) else .isFalse (fun h' => h (by cases h'; rfl))
  | .error a, .error b => if h : a = b then .isTrue (h ▸ rfl) else .isFalse (fun h' => h (by cases h'; rfl))
  | .ok _, .error _ => .isFalse nofun
  | .error _, .ok _ => .isFalse nofun

variable {K : Type}

/-- Type of a number. -/
def Num.kind : Num K → Kind
  | .bool _ => .bool
  | .int _ => .int
  | .float _ => .float

/-- The number zero or one of a type. -/
def IsZero [Zero K] : Num K → Prop
  | .bool b => b = false
  | .int z => z = 0
  | .float x => x = 0

def IsOne [One K] : Num K → Prop
  | .bool b => b = true
  | .int z => z = 1
  | .float x => x = 1

/-- The sizes are positive, and so is the number of values of an integer. -/
def Spec.Known (s : Spec) : Prop := (∀ x ∈ s.shape, 0 < x) ∧ (s.kind = .int → s.numValues ≠ some 0)

/-- A tensor of this shape is a matrix with `n` rows and `k` columns, its columns being the last axis. -/
def IsMatrix (shape : List Nat) (n k : Nat) : Prop := ∃ l, l ≠ [] ∧ shape = l ++ [k] ∧ n = l.foldr (· * ·) 1

section
variable [Field K] [LinearOrder K]

/-- The rows are orthogonal, with sum of squares `g`. -/
def OrthogonalRows (n k : Nat) (w : Nat → Nat → K) (g : K) : Prop :=
  ∀ i < n, ∀ i' < n, ∑ j ∈ Finset.range k, w i j * w i' j = if i = i' then g else 0

/-- The columns are orthogonal, with sum of squares `g`. -/
def OrthogonalColumns (n k : Nat) (w : Nat → Nat → K) (g : K) : Prop :=
  ∀ j < k, ∀ j' < k, ∑ i ∈ Finset.range n, w i j * w i j' = if j = j' then g else 0

/-- What is expected of NumPy. -/
structure Facts (N : Numeric K) : Prop where
  sqrt_nonneg : ∀ x, 0 ≤ x → 0 ≤ N.sqrt x
  sqrt_mul : ∀ x, 0 ≤ x → N.sqrt x * N.sqrt x = x
  left : ∀ n k a, OrthogonalColumns n (min n k) (N.svd n k a).1 1
  right : ∀ n k a, OrthogonalRows (min n k) k (N.svd n k a).2 1

/-- The rows or the columns of a matrix, whichever are fewer, are orthogonal. -/
def Orthogonal (n k : Nat) (w : Nat → Nat → K) (g : K) : Prop :=
  (k ≤ n → OrthogonalColumns n k w g) ∧ (n ≤ k → OrthogonalRows n k w g)

/-- The factor which is given by the argument `initialization_scale`. -/
def Gain (scale : Option (Num K)) (c : K) : Prop := 0 < c ∧ (scale = none ∧ c = 1 ∨ scale = some (.float c))

/-- A variable with these values is created, with the flags given and a name without slashes. -/
def Made (r : Except Err (Var K)) (name : List Char) (s : Spec) (trainable saved : Bool) (values : Nat → Num K) : Prop :=
  ∃ v, r = .ok v ∧ v.kind = s.kind ∧ v.shape = s.shape ∧ v.trainable = trainable ∧ v.saved = saved ∧ v.values = values ∧
    '/' ∉ v.name ∧ v.name.length = name.length ∧ ∀ (p : Nat) (c : Char), name[p]? = some c → c ≠ '/' → v.name[p]? = some c

/-- The flags fit: only variables of type float are trained. -/
def Flags (s : Spec) (trainable : Bool) : Prop := trainable = true → s.kind = .float

end

end Verif.Init
