import Mathlib.Algebra.Ring.Defs

/-!
# Model of the values of dense and convolutional layers

Models `Dense.apply` (`tensorforce/core/layers/dense.py` 103-107), `Conv1d.apply` (`tensorforce/core/layers/convolution.py` 131-138), `Conv2d.apply`
(271-278), the bias of `TransformationBase.apply` (`tensorforce/core/layers/layer.py` 829-832) and `Linear` (`tensorforce/core/layers/linear.py` 49-70,
87-94).

Simplifications:
* Numbers are those of a commutative ring, without rounding; one instance of a batch; positive size of the output; without activation and dropout.
* `tf.nn.conv1d` and `tf.nn.conv2d` are modelled as documented: the sum over window and input features, with zeros for missing entries, also for
  combinations of stride and dilation; the one-dimensional one is the two-dimensional one for a single row.
* Inputs and weights are functions of indices, which are used for indices inside only.
-/

namespace Verif.Conv

inductive Padding where
  | same
  | valid
  deriving Repr, DecidableEq

/-- One axis: size of the input, window, stride and dilation. -/
structure Axis where
  size : Nat
  window : Nat
  stride : Nat
  dilation : Nat
  deriving Repr, DecidableEq

/-- Entries from the first to the last of a window. -/
def Axis.span (a : Axis) : Nat := (a.window - 1) * a.dilation + 1

/-- Number of outputs, as documented for `tf.nn.convolution`. -/
def Axis.outputs (a : Axis) : Padding → Nat
  | .same => (a.size + (a.stride - 1)) / a.stride
  | .valid => (a.size + 1 - a.span + (a.stride - 1)) / a.stride

/-- Zeros before the first entry, as documented for `tf.nn.convolution`. -/
def Axis.before (a : Axis) (p : Padding) : Nat :=
  match p with
  | .same => ((a.outputs p - 1) * a.stride + a.span - a.size) / 2
  | .valid => 0

/-- The entry at a place of the padded axis, if there is one. -/
def Axis.entry (a : Axis) (p : Padding) (place : Nat) : Option Nat :=
  if place < a.before p then none
  else if place - a.before p < a.size then some (place - a.before p)
  else none

section
variable {K : Type} [CommRing K]

/-- Sum of the first `n` values. -/
def upTo : Nat → (Nat → K) → K
  | 0, _ => 0
  | n + 1, f => upTo n f + f n

/-- `tf.nn.bias_add`, lines 831-832 of `layer.py`. -/
def addBias (bias : Option (Nat → K)) (c : Nat) (v : K) : K :=
  match bias with
  | none => v
  | some b => v + b c

/-- `Dense.apply` -/
def dense (inputs size : Nat) (w : Nat → Nat → K) (bias : Option (Nat → K)) (x : Nat → K) : List K :=
  (List.range size).map fun c => addBias bias c (upTo inputs fun f => x f * w f c)

/-- The padded input. -/
def padded (rows cols : Axis) (p : Padding) (x : Nat → Nat → Nat → K) (r s f : Nat) : K :=
  match rows.entry p r with
  | none => 0
  | some m =>
    match cols.entry p s with
    | none => 0
    | some n => x m n f

/-- One output, without bias. -/
def cell (rows cols : Axis) (p : Padding) (inputs : Nat) (w : Nat → Nat → Nat → Nat → K) (x : Nat → Nat → Nat → K) (i j c : Nat) : K :=
  upTo rows.window fun k => upTo cols.window fun l => upTo inputs fun f =>
    padded rows cols p x (i * rows.stride + k * rows.dilation) (j * cols.stride + l * cols.dilation) f * w k l f c

/-- `Conv2d.apply` -/
def conv2d (rows cols : Axis) (p : Padding) (inputs size : Nat) (w : Nat → Nat → Nat → Nat → K) (bias : Option (Nat → K)) (x : Nat → Nat → Nat → K) :
    List (List (List K)) :=
  (List.range (rows.outputs p)).map fun i => (List.range (cols.outputs p)).map fun j => (List.range size).map fun c =>
    addBias bias c (cell rows cols p inputs w x i j c)

/-- `Conv1d.apply` -/
def conv1d (a : Axis) (p : Padding) (inputs size : Nat) (w : Nat → Nat → Nat → K) (bias : Option (Nat → K)) (x : Nat → Nat → K) : List (List K) :=
  (conv2d ⟨1, 1, 1, 1⟩ a p inputs size (fun _ => w) bias (fun _ => x)).headD []

/-- `Linear` for sequences, lines 55-60: a window of one. -/
def linear1 (length inputs size : Nat) (w : Nat → Nat → K) (bias : Option (Nat → K)) (x : Nat → Nat → K) : List (List K) :=
  conv1d ⟨length, 1, 1, 1⟩ .same inputs size (fun _ => w) bias x

/-- `Linear` for images, lines 61-66. -/
def linear2 (height width inputs size : Nat) (w : Nat → Nat → K) (bias : Option (Nat → K)) (x : Nat → Nat → Nat → K) : List (List (List K)) :=
  conv2d ⟨height, 1, 1, 1⟩ ⟨width, 1, 1, 1⟩ .same inputs size (fun _ _ => w) bias x

end

end Verif.Conv
