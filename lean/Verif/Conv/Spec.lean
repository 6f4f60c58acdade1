import Verif.Conv.Model
import Mathlib.Algebra.BigOperators.Group.Finset.Basic

/-!
# Terms for the theorems on dense and convolutional layers
-/

namespace Verif.Conv

/-- The axis is one which layers are documented to accept. -/
def Axis.Proper (a : Axis) : Prop := 0 < a.window ∧ 0 < a.stride ∧ 0 < a.dilation

variable {K : Type} [CommRing K]

/-- `v` is output `c` at the position `i`, `j`. -/
def At (out : List (List (List K))) (i j c : Nat) (v : K) : Prop := ∃ line cell, out[i]? = some line ∧ line[j]? = some cell ∧ cell[c]? = some v

/-- There are `h * w` outputs of the given size. -/
def HasShape (out : List (List (List K))) (h w size : Nat) : Prop :=
  out.length = h ∧ (∀ line ∈ out, line.length = w) ∧ ∀ line ∈ out, ∀ cell ∈ line, cell.length = size

/-- `y` is the input `x` with `b` rows and `d` columns of zeros before it, and zeros after it. -/
structure Pads (height width b d : Nat) (x y : Nat → Nat → Nat → K) : Prop where
  inside : ∀ m n f, m < height → n < width → y (m + b) (n + d) f = x m n f
  outside : ∀ r s f, (∀ m n, m < height → n < width → ¬(r = m + b ∧ s = n + d)) → y r s f = 0

/-- Entry `m` of the axis is in window `i`. -/
def InWindow (a : Axis) (p : Padding) (i m : Nat) : Prop := m < a.size ∧ ∃ k < a.window, i * a.stride + k * a.dilation = m + a.before p

/-- The bias of output `c`. -/
def biasOf (bias : Option (Nat → K)) (c : Nat) : K := (bias.map (fun b => b c)).getD 0

/-- Value of output `c` at position `m` of a sequence. -/
def at2 (out : List (List K)) (m c : Nat) : K := (out[m]?.bind (fun l => l[c]?)).getD 0

end Verif.Conv
