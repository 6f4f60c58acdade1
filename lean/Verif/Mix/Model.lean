import Mathlib.Algebra.Order.Field.Basic
import Mathlib.Algebra.Order.Group.Unbundled.Abs

/-!
# Model of self-attention and of the activation functions

Models `tensorforce/core/layers/attention.py` (`SelfAttention`, 51-137, with the bias of `TransformationBase.apply`, layer.py 829-832, and the
ranks accepted by `Linear`, linear.py 49-70) and `tensorforce/core/layers/misc.py` (`Activation`, 40-98).

Simplifications:
* Numbers are those of an ordered field, with functions for the exponential function, the logarithm and the square root, so that nothing is rounded
  and nothing overflows. `tf.nn.softmax` subtracts the maximum before, which makes no difference then.
* One example of a batch at a time. For self-attention the axes of an input but the last are one axis of positions (the reshaping of lines 110-125 and
  132-135 keeps the order of positions). The three linear layers are given as functions of the features of a position; their windows have size 1, so
  that each position is transformed on its own (linear.py 49-66).
* With output size 0 the axis removed by `squeeze` (layer.py 834-835) does not exist any more; inputs whose last axis of positions has size 1, for which
  `squeeze` would succeed, are left out, so that the size 0 always fails. So does the attention size 0, where the queries have no last axis.
* Activation or dropout of self-attention is left out, since it cannot be constructed (see C49).
* For `Activation`, an input is one row along its last axis.
-/

namespace Verif.Mix

inductive Err where
  /-- `TensorforceError` -/
  | tensorforce
  /-- Exception of TensorFlow. -/
  | tensorflow
  deriving Repr, DecidableEq

/-- Functions of TensorFlow and NumPy. -/
structure Numeric (K : Type) where
  exp : K → K
  log : K → K
  sqrt : K → K

section
variable {K : Type} [Field K] [LinearOrder K]

/-! ## attention.py -/

/-- Entry of the product of line 127, for a query and a key. -/
def dot : List K → List K → K
  | x :: xs, y :: ys => x * y + dot xs ys
  | _, _ => 0

/-- Sum. -/
def total : List K → K
  | [] => 0
  | x :: l => x + total l

/-- Lines 127-128: a row of the scores. -/
def scores (N : Numeric K) (size : Nat) (keys : List (List K)) (query : List K) : List K :=
  keys.map (fun k => dot query k / N.sqrt (size : K))

/-- `tf.nn.softmax`, line 129. -/
def softmax (N : Numeric K) (l : List K) : List K := l.map (fun s => N.exp s / total (l.map N.exp))

/-- Line 130: a row of the product of attention and values. -/
def combine (size : Nat) (w : List K) (values : List (List K)) : List K :=
  (List.range size).map (fun c => dot w (values.map (fun v => v.getD c 0)))

/-- The bias of layer.py 831-832. -/
def addBias (bias : Option (List K)) (row : List K) : List K :=
  match bias with
  | none => row
  | some b => List.zipWith (· + ·) row b

/-- Lines 64-68 and linear.py 67-70: the rank of the input without batch. -/
def checkRank (rank : Nat) : Except Err Unit :=
  if rank ≤ 1 then .error .tensorforce else if 3 < rank then .error .tensorforce else .ok ()

/-- Layer with its arguments. -/
structure Attention (K : Type) where
  size : Nat
  attentionSize : Option Nat
  query : List K → List K
  key : List K → List K
  value : List K → List K
  bias : Option (List K)

/-- Line 62. -/
def Attention.width (l : Attention K) : Nat := l.attentionSize.getD l.size

/-- Lines 105-137, for the features of all positions. -/
def Attention.apply (N : Numeric K) (l : Attention K) (x : List (List K)) : Except Err (List (List K)) :=
  if l.width = 0 then .error .tensorflow
  else if l.size = 0 then .error .tensorflow
  else
    let keys := x.map l.key
    let values := x.map l.value
    .ok (x.map (fun p => addBias l.bias (combine l.size (softmax N (scores N l.width keys (l.query p))) values)))

/-! ## misc.py -/

inductive Name where
  | crelu
  | elu
  | leakyRelu
  | none
  | relu
  | selu
  | sigmoid
  | softmax
  | softplus
  | softsign
  | swish
  | tanh
  | unknown
  deriving Repr, DecidableEq

/-- `tf.nn.relu` -/
def relu (x : K) : K := max x 0

/-- `tf.nn.elu` -/
def elu (N : Numeric K) (x : K) : K := if x < 0 then N.exp x - 1 else x

/-- `tf.nn.leaky_relu` with `alpha=0.2` -/
def leaky (x : K) : K := max (1 / 5 * x) x

/-- `tf.nn.selu` -/
def selu (N : Numeric K) (x : K) : K :=
  if x < 0 then 17580993408473768 / 10000000000000000 * (N.exp x - 1) else 10507009873554805 / 10000000000000000 * x

/-- `tf.sigmoid` -/
def sigmoid (N : Numeric K) (x : K) : K := 1 / (1 + N.exp (-x))

/-- `tf.nn.softplus` -/
def softplus (N : Numeric K) (x : K) : K := N.log (1 + N.exp x)

/-- `tf.nn.softsign` -/
def softsign (x : K) : K := x / (1 + |x|)

/-- Lines 91-93. -/
def swish (N : Numeric K) (x : K) : K := sigmoid N x * x

/-- `tf.nn.tanh` -/
def tanh (N : Numeric K) (x : K) : K := (N.exp x - N.exp (-x)) / (N.exp x + N.exp (-x))

/-- `Activation`, lines 44-98. -/
def activate (N : Numeric K) (a : Name) (x : List K) : Except Err (List K) :=
  match a with
  | .crelu => .ok (x.map relu ++ x.map (fun v => relu (-v)))
  | .elu => .ok (x.map (elu N))
  | .leakyRelu => .ok (x.map leaky)
  | .none => .ok x
  | .relu => .ok (x.map relu)
  | .selu => .ok (x.map (selu N))
  | .sigmoid => .ok (x.map (sigmoid N))
  | .softmax => .ok (Mix.softmax N x)
  | .softplus => .ok (x.map (softplus N))
  | .softsign => .ok (x.map softsign)
  | .swish => .ok (x.map (swish N))
  | .tanh => .ok (x.map (tanh N))
  | .unknown => .error .tensorforce

/-- Size of the last axis and bounds, `Layer.output_spec`: those of the input. -/
structure Range (K : Type) where
  length : Nat
  lower : K
  upper : K

/-- `output_spec` is not overridden. -/
def announce (r : Range K) : Range K := r

end

end Verif.Mix
