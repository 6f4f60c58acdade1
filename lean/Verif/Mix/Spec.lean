import Verif.Mix.Model
import Mathlib.Algebra.Order.Ring.Defs
import Mathlib.Algebra.BigOperators.Group.List.Basic

/-!
# Terms for the theorems on self-attention and activation functions
-/

namespace Verif.Mix

instance [DecidableEq α] : DecidableEq (Except Err α)
  | .ok a, .ok b => if h : a = b then .isTrue (h ▸ rfl) else .isFalse (fun h' => h (by cases h'; rfl))
  | .error a, .error b => if h : a = b then .isTrue (h ▸ rfl) else .isFalse (fun h' => h (by cases h'; rfl))
  | .ok _, .error _ => .isFalse nofun
  | .error _, .ok _ => .isFalse nofun

section
variable {K : Type} [Field K] [LinearOrder K]

/-- What is expected of the functions. -/
structure Facts (N : Numeric K) : Prop where
  exp_pos : ∀ x, 0 < N.exp x
  exp_add : ∀ x y, N.exp (x + y) = N.exp x * N.exp y
  exp_lt : ∀ x y, x < y → N.exp x < N.exp y
  exp_log : ∀ x, 0 < x → N.exp (N.log x) = x
  sqrt_nonneg : ∀ x, 0 ≤ x → 0 ≤ N.sqrt x
  sqrt_mul : ∀ x, 0 ≤ x → N.sqrt x * N.sqrt x = x

/-- Scalar product. -/
def inner (u v : List K) : K := (List.zipWith (fun x y => x * y) u v).sum

/-- The size of queries and keys: by default the size of the output. -/
def IsWidth (l : Attention K) (a : Nat) : Prop := l.attentionSize = some a ∨ l.attentionSize = none ∧ a = l.size

/-- Scalar product of query and key, divided by the square root of their size. -/
def IsScore (a : Nat) (q k : List K) (s : K) : Prop := ∃ r, 0 ≤ r ∧ r * r = (a : K) ∧ s * r = inner q k

/-- Positive weights with sum 1, proportional to the exponential function of the scores. -/
def Attends (N : Numeric K) (l : Attention K) (x : List (List K)) (p : List K) (w : List K) : Prop :=
  w.length = x.length ∧ (∀ v ∈ w, 0 < v) ∧ w.sum = 1 ∧
  ∃ (a : Nat) (s : List K), IsWidth l a ∧ s.length = x.length ∧
    (∀ (j : Nat) (y : List K) (t : K), x[j]? = some y → s[j]? = some t → IsScore a (l.query p) (l.key y) t) ∧
    ∀ (i j : Nat) (u v t t' : K), w[i]? = some u → w[j]? = some v → s[i]? = some t → s[j]? = some t' → u * N.exp t' = v * N.exp t

/-- Feature `c` of the values of all positions. -/
def feature (l : Attention K) (x : List (List K)) (c : Nat) : List K := x.map (fun y => (l.value y).getD c 0)

/-- The bias has the size of the output. -/
def Fits (l : Attention K) : Prop := ∀ b, l.bias = some b → b.length = l.size

def biasAt (l : Attention K) (c : Nat) : K :=
  match l.bias with
  | none => 0
  | some b => b.getD c 0

/-- The sizes are as documented: positive. -/
def Positive (l : Attention K) : Prop := 0 < l.size ∧ ∀ a, l.attentionSize = some a → 0 < a

/-- The row has the announced size and is within the announced bounds. -/
def Within (r : Range K) (x : List K) : Prop := x.length = r.length ∧ ∀ v ∈ x, r.lower ≤ v ∧ v ≤ r.upper

end

end Verif.Mix
