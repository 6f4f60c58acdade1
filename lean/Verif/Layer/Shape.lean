/-!
# Model of the shapes of layers

Models what shapes the layers of `tensorforce/core/layers` announce (`output_spec`) and compute (`apply`): `Reshape` (misc.py 195-230),
`Pooling`, `Flatten`, `Pool1d`, `Pool2d` (pooling.py), `Conv1d`, `Conv2d`, `Conv1dTranspose`, `Conv2dTranspose` (convolution.py),
`TransformationBase.apply` (layer.py 829-843) and `Retrieve` (layer.py 219-350); the check of every output against the announced shape in
`tf_function` (`tensorforce/core/module.py` 103-109 with `SignatureDict.kwargs_to_args`, dicts.py 161-176), and the shape setter and check of
`TensorSpec` (tensor_spec.py 103-147, 612-651).

Simplifications: only shapes are modelled, not values or types. Input shapes are completely known, as `TensorSpec.signature` requires; the
batch axis is unknown when the graph is built and known when it runs. Windows, strides and dilations are natural numbers, zero being rejected.
`conv_output_length`, `deconv_output_length` and the TensorFlow operations are modelled after their documentation; `np.ceil(a / b)` is exact, as
it is up to 2^53. The names of retrieved tensors are distinct. The static shape of a transposed convolution is unknown except for its rank, since its `output_shape` is a tensor.
-/

namespace Verif.Layer

inductive SError where
  | rejected  -- by an argument or shape check
  | operation -- by a TensorFlow operation
  | mismatch  -- `spec.is_compatible_with(...)`
deriving DecidableEq

/-- A dimension; `none` if not known. -/
abbrev Dim := Option Nat

abbrev Shape := List Dim

/-- `is_compatible_with`. -/
def compatible : Shape → Shape → Bool
  | [], [] => true
  | some a :: s, some b :: t => a == b && compatible s t
  | none :: s, _ :: t => compatible s t
  | _ :: s, none :: t => compatible s t
  | _, _ => false

/-- Building the graph of `apply`, given the announced shape and the computed shape for unknown batch size. -/
def construct (announced : Except SError (List Int)) (computed : Except SError Shape) : Except SError (List Nat) :=
  match announced with
  | .error e => .error e
  | .ok a =>
    if a.any (· ≤ 0) then .error .rejected
    else match computed with
      | .error e => .error e
      | .ok s => if compatible (none :: a.map fun x => some x.toNat) s then .ok (a.map Int.toNat) else .error .mismatch

def product : List Int → Int
  | [] => 1
  | x :: xs => x * product xs

def size (shape : List Nat) : Nat := shape.foldr (· * ·) 1

/-- `tf.reshape(tensor=x, shape=(-1, *target))`. -/
def tfReshape (x : List Nat) (batch : Dim) (target : List Nat) : Except SError Shape :=
  if size target = 0 then .error .operation
  else match batch with
    | none => .ok (none :: target.map some)
    | some n => if n * size x % size target = 0 then .ok (some (n * size x / size target) :: target.map some) else .error .operation

/-! ### Reshape -/

/-- misc.py 217-224. -/
def announceReshape (target : List Int) (x : List Nat) : Except SError (List Int) :=
  if (size x : Int) ≠ product target then .error .rejected
  else if target.any (· < -1) then .error .rejected
  else .ok target

/-- misc.py 227-230; a second negative dimension is an error. -/
def computeReshape (target : List Int) (x : List Nat) (batch : Dim) : Except SError Shape :=
  if target.any (· < 0) then .error .operation else tfReshape x batch (target.map Int.toNat)

/-! ### Global pooling -/

inductive Reduction where
  | concat
  | other
deriving DecidableEq

/-- pooling.py 48-59. -/
def announcePooling (r : Reduction) (x : List Nat) : Except SError (List Int) :=
  match r with
  | .concat => .ok [(size x : Int)]
  | .other =>
    match x.getLast? with
    | none => .error .rejected
    | some l => .ok [(l : Int)]

/-- Removes axis 1 the given number of times. -/
def dropAxis1 : Nat → Shape → Except SError Shape
  | 0, s => .ok s
  | k + 1, b :: _ :: s => dropAxis1 k (b :: s)
  | _ + 1, _ => .error .operation

/-- pooling.py 62-84. -/
def computePooling (r : Reduction) (x : List Nat) (batch : Dim) : Except SError Shape :=
  match r with
  | .concat => tfReshape x batch [size x]
  | .other => dropAxis1 (x.length + 1 - 2) (batch :: x.map some)

/-- `Flatten.apply`, pooling.py 101-106. -/
def computeFlatten (x : List Nat) (batch : Dim) : Except SError Shape :=
  if x = [] then .ok [batch, some 1] else computePooling .concat x batch

/-! ### Windows -/

/-- The padding argument; the layers use it as it is and in upper case. -/
inductive Padding where
  | same
  | valid
  | full
  | causal
  | upperSame   -- 'SAME', 'Same', …
  | upperValid
  | other
deriving DecidableEq

/-- The padding of the operation: SAME is true. -/
def Padding.upper : Padding → Option Bool
  | same | upperSame => some true
  | valid | upperValid => some false
  | full | causal | other => none

/-- Window, stride and dilation along one axis. -/
structure Axis where
  window : Nat
  stride : Nat
  dilation : Nat
deriving DecidableEq

def Axis.effective (a : Axis) : Int := a.window + (a.window - 1) * (a.dilation - 1)

/-- `conv_output_length` of `tensorflow.python.keras.utils.conv_utils`. -/
def convOutputLength (p : Padding) (n : Nat) (a : Axis) : Except SError Int :=
  let finish (len : Int) : Except SError Int := if a.stride = 0 then .error .rejected else .ok ((len + a.stride - 1) / a.stride)
  match p with
  | .same | .causal => finish n
  | .valid => finish (n - a.effective + 1)
  | .full => finish (n + a.effective - 1)
  | .upperSame | .upperValid | .other => .error .rejected

/-- The length of the output of a TensorFlow convolution or pooling operation. -/
def windowed (p : Padding) (n : Nat) (a : Axis) : Except SError Nat :=
  if a.window = 0 ∨ a.stride = 0 ∨ a.dilation = 0 then .error .operation
  else match p.upper with
    | none => .error .operation
    | some true => .ok ((n + a.stride - 1) / a.stride)
    | some false =>
      let len := (n - a.effective + a.stride).tdiv a.stride
      if len < 0 then .error .operation else .ok len.toNat

/-- `f` for each axis; the numbers of axes have to agree. -/
def perAxis {β : Type} (f : Nat → Axis → Except SError β) : List Nat → List Axis → Except SError (List β)
  | [], [] => .ok []
  | n :: ns, a :: as =>
    match f n a, perAxis f ns as with
    | .ok b, .ok bs => .ok (b :: bs)
    | .error e, _ => .error e
    | _, .error e => .error e
  | _, _ => .error .rejected

/-! ### Transformations -/

/-- The arguments of `TransformationBase` that matter for shapes. -/
structure Trans where
  size : Int
  crelu : Bool
deriving DecidableEq

/-- `self.squeeze`, layer.py 790. -/
def Trans.squeeze (t : Trans) : Prop := t.size = 0

instance (t : Trans) : Decidable t.squeeze := inferInstanceAs (Decidable (_ = _))

/-- `self.size`, layer.py 791. -/
def Trans.channels (t : Trans) : Nat := (max t.size 1).toNat

/-- `tf.nn.crelu` doubles the last axis. -/
def tfCrelu (s : Shape) : Shape :=
  match s.getLast? with
  | none => []
  | some d => s.dropLast ++ [d.map (2 * ·)]

/-- The activation as a layer of its own, with input and output announced as `a`: `Activation.apply`, misc.py 58-98, for `crelu`. The graph is built
for inputs of the announced shape and used for a tensor of shape `s`. -/
def applyCrelu (a : List Int) (s : Shape) : Except SError Shape :=
  match construct (.ok a) (.ok (tfCrelu (none :: a.map fun x => some x.toNat))) with
  | .error e => .error e
  | .ok _ => .ok (tfCrelu s)

/-- layer.py 829-843, for a tensor with last axis `channels` and the announced shape `a`; other activations leave the shape unchanged. -/
def Trans.apply (t : Trans) (a : List Int) (s : Shape) : Except SError Shape :=
  let s := if t.squeeze then s.dropLast else s
  if t.crelu then applyCrelu a s else .ok s

/-! ### Convolution -/

/-- convolution.py 98-114, 233-253; `x` without its last axis has one axis for every element of `as`. Without any, this is `Dense` (dense.py 75-86). -/
def announceConv (p : Padding) (as : List Axis) (t : Trans) (x : List Nat) : Except SError (List Int) :=
  if x = [] then .error .rejected
  else match perAxis (convOutputLength p) x.dropLast as with
    | .error e => .error e
    | .ok lens => .ok (if t.squeeze then lens else lens ++ [(t.channels : Int)])

/-- convolution.py 132-138, 272-278, dense.py 104-107. -/
def computeConv (p : Padding) (as : List Axis) (t : Trans) (x : List Nat) (batch : Dim) : Except SError Shape :=
  match announceConv p as t x with
  | .error e => .error e
  | .ok a =>
    match perAxis (windowed p) x.dropLast as with
    | .error e => .error e
    | .ok lens => t.apply a (batch :: lens.map some ++ [some t.channels])

/-! ### Local pooling -/

/-- Division rounded up; division by zero is an error. -/
def ceilDiv (a : Int) (b : Nat) : Except SError Int := if b = 0 then .error .rejected else .ok (-((-a) / b))

/-- pooling.py 160-166, 244-255: any other padding leaves the shape unchanged. -/
def poolLength (p : Padding) (n : Nat) (a : Axis) : Except SError Int :=
  match p with
  | .same => ceilDiv n a.stride
  | .valid => ceilDiv (n - (a.window - 1)) a.stride
  | _ => .ok n

def announcePool (p : Padding) (as : List Axis) (x : List Nat) : Except SError (List Int) :=
  match x.getLast? with
  | none => .error .rejected
  | some c =>
    match perAxis (poolLength p) x.dropLast as with
    | .error e => .error e
    | .ok lens => .ok (lens ++ [(c : Int)])

/-- pooling.py 171-186, 260-271. -/
def computePool (p : Padding) (as : List Axis) (x : List Nat) (batch : Dim) : Except SError Shape :=
  match x.getLast? with
  | none => .error .rejected
  | some c =>
    match perAxis (fun n a => windowed p n { a with dilation := 1 }) x.dropLast as with
    | .error e => .error e
    | .ok lens => .ok (batch :: lens.map some ++ [some c])

/-! ### Transposed convolution -/

/-- `deconv_output_length`. -/
def deconvOutputLength (p : Padding) (n : Nat) (a : Axis) : Except SError Int :=
  match p with
  | .same => .ok (n * a.stride)
  | .valid => .ok (n * a.stride + max (a.effective - a.stride) 0)
  | .full => .ok (n * a.stride - (a.stride + a.effective - 2))
  | .causal | .upperSame | .upperValid | .other => .error .rejected

/-- `self.output_shape` without the channels: the argument `given` (convolution.py 465-474), or computed at the first `output_spec` (367-373, 531-541).
For `Conv1dTranspose` an argument always fails (326, `self.squeeze` before it is set). -/
def transposeLens (p : Padding) (as : List Axis) (given : Option (List Int)) (x : List Nat) : Except SError (List Int) :=
  if x = [] then .error .rejected
  else if given.isSome ∧ as.length = 1 then .error .rejected
  else match perAxis (deconvOutputLength p) x.dropLast as with
    | .error e => .error e
    | .ok lens => .ok (given.getD lens)

/-- convolution.py 375-378, 543-546. -/
def announceTranspose (p : Padding) (as : List Axis) (t : Trans) (given : Option (List Int)) (x : List Nat) : Except SError (List Int) :=
  match transposeLens p as given x with
  | .error e => .error e
  | .ok out => .ok (if t.squeeze then out else out ++ [(t.channels : Int)])

/-- A transposed convolution with output length `out` exists if convolving that gives the input length. -/
def transposes (p : Padding) (out : List Nat) (as : List Axis) (n : List Nat) : Prop := perAxis (windowed p) out as = .ok n

instance (p : Padding) (out : List Nat) (as : List Axis) (n : List Nat) : Decidable (transposes p out as n) :=
  match h : perAxis (windowed p) out as with
  | .ok m => if e : m = n then isTrue (by rw [transposes, h, e]) else isFalse (by rw [transposes, h]; intro h'; exact e (by injection h'))
  | .error _ => isFalse (by rw [transposes, h]; intro h'; cases h')

/-- convolution.py 401-411, 570-580. The weights have the shape window + (input channels, `size`) where the operation expects the output
channels before the input channels, so that both have to agree. -/
def computeTranspose (p : Padding) (as : List Axis) (t : Trans) (given : Option (List Int)) (x : List Nat) (batch : Dim) : Except SError Shape :=
  match transposeLens p as given x, announceTranspose p as t given x with
  | .error e, _ => .error e
  | _, .error e => .error e
  | .ok out, .ok a =>
    match batch with
    | none => t.apply a (none :: out.map (fun _ => none) ++ [none])
    | some n =>
      if x.getLast? = some t.channels ∧ transposes p (out.map Int.toNat) as x.dropLast then
        t.apply a (some n :: (out.map fun d => some d.toNat) ++ [some t.channels])
      else .error .operation

/-! ### Retrieve -/

inductive Aggregation where
  | concat
  | product
  | stack
  | sum
deriving DecidableEq

/-- Python indexing. -/
def pyGet (s : List Nat) (i : Int) : Except SError Nat :=
  let i := if i < 0 then i + s.length else i
  if i < 0 then .error .rejected
  else match s[i.toNat]? with
    | none => .error .rejected
    | some d => .ok d

/-- layer.py 277-287: all axes but `axis` agree with the first shape. -/
def agreeBut (axis : Int) (s0 s : List Nat) : Bool :=
  s.length == s0.length && (List.range s.length).all fun n => (n : Int) == axis || s[n]? == s0[n]?

/-- layer.py 288-291. -/
def concatShape (axis : Int) (s0 : List Nat) (shapes : List (List Nat)) : List Nat :=
  (List.range s0.length).map fun (n : Nat) => if (n : Int) = axis then (shapes.map fun s => s[n]?.getD 0).sum else s0[n]?.getD 0

def collectOk {α : Type} : List (Except SError α) → Except SError (List α)
  | [] => .ok []
  | .error e :: _ => .error e
  | .ok a :: l => (collectOk l).map (a :: ·)

/-- layer.py 302-305. -/
def stackShape (axis : Int) (s0 : List Nat) (count : Nat) : Except SError (List Nat) :=
  collectOk <| (List.range (s0.length + 1)).map fun (n : Nat) => if (n : Int) = axis then .ok count else pyGet s0 (n - if (n : Int) > axis then 1 else 0)

/-- layer.py 309-317: broadcastable to the first shape. -/
def broadcast (s0 s : List Nat) : Bool :=
  s.length == s0.length && (List.range s.length).all fun n => s[n]? == s0[n]? || s[n]? == some 1 || s0[n]? == some 1

/-- layer.py 318. -/
def maxShape (s0 : List Nat) (shapes : List (List Nat)) : List Nat :=
  (List.range s0.length).map fun n => (shapes.map fun s => s[n]?.getD 0).foldr max 0

/-- layer.py 259-321, for tensors of the same type. -/
def announceRetrieve (g : Aggregation) (axis : Int) : List (List Nat) → Except SError (List Int)
  | [] => .error .rejected
  | [s] => .ok (s.map Int.ofNat)
  | s0 :: shapes =>
    let all := s0 :: shapes
    match g with
    | .concat => if all.all (agreeBut axis s0) then .ok ((concatShape axis s0 all).map Int.ofNat) else .error .rejected
    | .stack => if all.all (· = s0) then (stackShape axis s0 all.length).map (·.map Int.ofNat) else .error .rejected
    | .product | .sum => if all.all (broadcast s0) then .ok ((maxShape s0 all).map Int.ofNat) else .error .rejected

/-- An axis of a tensor with `rank` axes. -/
def normAxis (axis : Int) (rank : Nat) : Except SError Nat :=
  let a := if axis < 0 then axis + rank else axis
  if a < 0 ∨ (rank : Int) ≤ a then .error .operation else .ok a.toNat

def addDims : List Dim → Dim
  | [] => some 0
  | d :: ds =>
    match d, addDims ds with
    | some a, some b => some (a + b)
    | _, _ => none

/-- `tf.concat`, for tensors not all empty. -/
def tfConcat (axis : Int) : List Shape → Except SError Shape
  | [] => .error .operation
  | s0 :: shapes =>
    match normAxis axis s0.length with
    | .error e => .error e
    | .ok a =>
      if (s0 :: shapes).all fun s => s.length == s0.length && s.eraseIdx a == s0.eraseIdx a then
        .ok (s0.set a (addDims ((s0 :: shapes).map fun s => s[a]?.getD none)))
      else .error .operation

/-- `tf.stack`. -/
def tfStack (axis : Int) : List Shape → Except SError Shape
  | [] => .error .operation
  | s0 :: shapes =>
    match normAxis axis (s0.length + 1) with
    | .error e => .error e
    | .ok a => if shapes.all (· == s0) then .ok (s0.take a ++ some (shapes.length + 1) :: s0.drop a) else .error .operation

/-- `tf.reduce_prod`, `tf.reduce_sum`. -/
def tfReduce (axis : Int) (s : Shape) : Except SError Shape :=
  match normAxis axis s.length with
  | .error e => .error e
  | .ok a => .ok (s.eraseIdx a)

/-- layer.py 323-350. The loop adding axes (331-334) never does, as tensors of different rank are rejected. -/
def computeRetrieve (g : Aggregation) (axis : Int) (shapes : List (List Nat)) (batch : Dim) : Except SError Shape :=
  match shapes with
  | [s] => .ok (batch :: s.map some)
  | _ =>
    let xs := shapes.map fun s => batch :: s.map some
    match g with
    | .concat => tfConcat (axis + 1) xs
    | .stack => tfStack (axis + 1) xs
    | .product | .sum =>
      match tfStack (axis + 1) xs with
      | .error e => .error e
      | .ok s => tfReduce (axis + 1) s

end Verif.Layer
