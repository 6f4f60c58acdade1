import Verif.Conv.Model

/-!
# Model of the values of transposed convolutions

Models `Conv1dTranspose` (`tensorforce/core/layers/convolution.py`): the default output width (`output_spec`, 364-373) and `apply` (400-411).

Simplifications, in addition to those of `Verif/Conv/Model.lean`:
* `tf.nn.conv1d_transpose` is modelled as documented, by its weighted sums, and its weights have the output before the input features (see C43 for the
  sizes of the weights which the layer creates).
* `deconv_output_length` of Keras is modelled as implemented for no output padding.
-/

namespace Verif.Conv

/-- `deconv_output_length`: the default output width for inputs of the given length. -/
def defaultWidth (window stride dilation : Nat) (p : Padding) (length : Nat) : Nat :=
  let filter := window + (window - 1) * (dilation - 1)
  match p with
  | .same => length * stride
  | .valid => length * stride + max (filter - stride) 0

section
variable {K : Type} [CommRing K]

/-- One output of `tf.nn.conv1d_transpose`: the axis is that of the output. -/
def cellT (a : Axis) (p : Padding) (inputs : Nat) (w : Nat → Nat → Nat → K) (x : Nat → Nat → K) (m c : Nat) : K :=
  upTo (a.outputs p) fun i => upTo a.window fun k =>
    if a.entry p (i * a.stride + k * a.dilation) = some m then upTo inputs fun f => x i f * w k c f else 0

/-- Lines 400-411; inputs which do not have the length of the convolved output are refused. -/
def transpose1d (a : Axis) (p : Padding) (length inputs size : Nat) (w : Nat → Nat → Nat → K) (bias : Option (Nat → K)) (x : Nat → Nat → K) :
    Option (List (List K)) :=
  if a.outputs p = length then
    some ((List.range a.size).map fun m => (List.range size).map fun c => addBias bias c (cellT a p inputs w x m c))
  else none

end

end Verif.Conv
