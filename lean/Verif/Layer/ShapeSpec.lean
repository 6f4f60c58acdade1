import Verif.Layer.Shape

/-! # What shapes layers should have -/

namespace Verif.Layer

/-- If the graph can be built, the computed tensor has the announced shape, whatever the batch size. -/
def Agrees (announced : Except SError (List Int)) (compute : Dim → Except SError Shape) : Prop :=
  ∀ a, construct announced (compute none) = .ok a → ∀ n, compute (some n) = .ok (some n :: a.map some)

/-- The same if an operation may fail for actual tensors. -/
def AgreesIfOk (announced : Except SError (List Int)) (compute : Dim → Except SError Shape) : Prop :=
  ∀ a, construct announced (compute none) = .ok a → ∀ n s, compute (some n) = .ok s → s = some n :: a.map some

/-- The layer can be built, with shape `a`. -/
def Builds (announced : Except SError (List Int)) (compute : Dim → Except SError Shape) (a : List Nat) : Prop :=
  construct announced (compute none) = .ok a

/-- The number of elements. -/
def volume : List Nat → Nat
  | [] => 1
  | d :: s => d * volume s

/-- Arguments in the documented range. -/
def Axis.Valid (a : Axis) : Prop := 0 < a.window ∧ 0 < a.stride ∧ 0 < a.dilation

/-- Number of inputs from the first to the last input of a window. -/
def Axis.span (a : Axis) : Nat := (a.window - 1) * a.dilation + 1

/-- `len` is the number of windows: with padding, windows start at multiples of the stride as long as there are inputs; without, as long as
they fit. -/
def Windows (p : Padding) (n : Nat) (a : Axis) (len : Nat) : Prop :=
  match p with
  | .same => 0 < len ∧ (len - 1) * a.stride < n ∧ n ≤ len * a.stride
  | .valid => 0 < len ∧ (len - 1) * a.stride + a.span ≤ n ∧ n < len * a.stride + a.span
  | _ => False

/-- `P` for every axis. -/
def EachAxis (P : Nat → Axis → Nat → Prop) : List Nat → List Axis → List Nat → Prop
  | [], [], [] => True
  | n :: ns, a :: as, l :: ls => P n a l ∧ EachAxis P ns as ls
  | _, _, _ => False

/-- Inputs are positive and, without padding, at least as long as a window. -/
def Long (p : Padding) (n : Nat) (a : Axis) : Prop := 0 < n ∧ (p = .valid → a.span ≤ n)

def AllLong (p : Padding) : List Nat → List Axis → Prop
  | [], [] => True
  | n :: ns, a :: as => Long p n a ∧ AllLong p ns as
  | _, _ => False

/-- The output length of a transposed convolution: a stride per input, but without padding at least up to the end of the last window. -/
def fullLength (p : Padding) (n : Nat) (a : Axis) : Nat :=
  match p with
  | .valid => max (n * a.stride) ((n - 1) * a.stride + a.span)
  | _ => n * a.stride

/-- The axis, given without counting the batch axis, is the batch axis: just before the first one, also if counted from the end. -/
def OnBatch (g : Aggregation) (axis : Int) (rank : Nat) : Prop := axis = -1 ∨ axis = -(rank + if g = .concat then 2 else 3)

end Verif.Layer
