import Verif.Layer.Shape

/-!
# Model of transformation layers

Models `TransformationBase` (`tensorforce/core/layers/layer.py` 780-843) and how its subclasses call it: `Dense` (dense.py 104-107), `Conv1d`, `Conv2d`
and their transposes (convolution.py 132-138, 272-278, 401-411, 570-580), `Embedding` (embedding.py 128-133), `InputRnn` (input_rnn.py 136-149),
`SelfAttention` (attention.py 50-137) and `Rnn` (rnn.py 155-158, with `TemporalLayer.apply`, layer.py 705-707); with the check of arguments and
results by `tf_function` (module.py 103-109, 127-130).

Simplifications: a tensor is its shape and the list of operations that were applied to it. The operation of the subclass itself gives a tensor of
shape `lead` and the number of channels; for `SelfAttention` with size 0 it does not, so this case is outside the model. Activations
other than `crelu` (see `Verif.Layer.Shape`).
-/

namespace Verif.Layer

inductive Step where
  | core | bias | squeeze | activation | dropout
deriving DecidableEq

structure Tensor where
  shape : Shape
  steps : List Step
deriving DecidableEq

inductive Kind where
  | dense | conv | transpose | embedding | inputRnn | attention | rnn
deriving DecidableEq

structure TLayer where
  kind : Kind
  size : Int
  bias : Bool
  activation : Bool
  dropout : Bool
deriving DecidableEq

/-- layer.py 790-791. -/
def TLayer.squeeze (l : TLayer) : Prop := l.size = 0

instance (l : TLayer) : Decidable l.squeeze := inferInstanceAs (Decidable (_ = _))

def TLayer.channels (l : TLayer) : Nat := (max l.size 1).toNat

/-- `output_spec().shape` of the subclasses. -/
def TLayer.announced (l : TLayer) (lead : List Nat) : List Nat := if l.squeeze then lead else lead ++ [l.channels]

/-- The constructor evaluates `output_spec()` for activation and dropout (794-810), which for `SelfAttention` uses `self.value` (attention.py 101)
before it is set (78). -/
def TLayer.constructs (l : TLayer) : Prop := ¬ (l.kind = .attention ∧ (l.activation = true ∨ l.dropout = true))

instance (l : TLayer) : Decidable l.constructs := inferInstanceAs (Decidable (¬ _))

/-- `tf.nn.bias_add`. -/
def addBias (channels : Nat) (x : Tensor) : Except SError Tensor :=
  if x.shape.length < 2 then .error .operation
  else match x.shape.getLast? with
    | some (some d) => if d = channels then .ok { x with steps := x.steps ++ [.bias] } else .error .operation
    | _ => .ok { x with steps := x.steps ++ [.bias] }

/-- `tf.squeeze` of the last axis. -/
def removeAxis (x : Tensor) : Except SError Tensor :=
  match x.shape.getLast? with
  | none => .error .operation
  | some (some d) => if d = 1 then .ok ⟨x.shape.dropLast, x.steps ++ [.squeeze]⟩ else .error .operation
  | some none => .ok ⟨x.shape.dropLast, x.steps ++ [.squeeze]⟩

/-- `Activation.apply`, a function of its own with the announced shape as signature. -/
def activate (announced : List Nat) (x : Tensor) : Except SError Tensor :=
  if compatible (none :: announced.map some) x.shape then .ok { x with steps := x.steps ++ [.activation] } else .error .mismatch

/-- `self.dropout.apply(x=x)`, 840-841: the argument `deterministic` is missing, for which `kwargs_to_args` (dicts.py 187-192) takes the value before it,
which is no bool. -/
def dropOut (_ : Tensor) : Except SError Tensor := .error .mismatch

/-- `f` if asked for. -/
def optionally (b : Prop) [Decidable b] (f : Tensor → Except SError Tensor) (x : Tensor) : Except SError Tensor := if b then f x else .ok x

/-- `TransformationBase.apply`, 829-843. -/
def TLayer.base (l : TLayer) (lead : List Nat) (x : Tensor) : Except SError Tensor :=
  match optionally (l.bias = true) (addBias l.channels) x with
  | .error e => .error e
  | .ok x =>
    match optionally l.squeeze removeAxis x with
    | .error e => .error e
    | .ok x =>
      match optionally (l.activation = true) (activate (l.announced lead)) x with
      | .error e => .error e
      | .ok x => optionally (l.dropout = true) dropOut x

/-- The tensor computed by the subclass. -/
def TLayer.core (l : TLayer) (lead : List Nat) (batch : Dim) : Tensor := ⟨batch :: lead.map some ++ [some l.channels], [.core]⟩

/-- `apply`: `Rnn` calls `TemporalLayer.apply`, which ends with `super().apply`, in the order of its base classes that of `TransformationBase`, and then
calls it again. -/
def TLayer.compute (l : TLayer) (lead : List Nat) (batch : Dim) : Except SError Tensor :=
  match l.kind with
  | .rnn =>
    match l.base lead (l.core lead batch) with
    | .error e => .error e
    | .ok x => l.base lead x
  | _ => l.base lead (l.core lead batch)

/-- The layer as a whole: constructor, function, check of the result. -/
def TLayer.apply (l : TLayer) (lead : List Nat) (batch : Dim) : Except SError Tensor :=
  if l.constructs then
    match l.compute lead batch with
    | .error e => .error e
    | .ok x => if compatible (none :: (l.announced lead).map some) x.shape then .ok x else .error .mismatch
  else .error .rejected

/-! ### What the layer should do -/

/-- Each step once and in order. -/
def TLayer.expected (l : TLayer) : List Step :=
  .core :: (if l.bias then [Step.bias] else []) ++ (if l.size = 0 then [Step.squeeze] else []) ++ (if l.activation then [Step.activation] else []) ++
    (if l.dropout then [Step.dropout] else [])

/-- The shape: the channels are left out for size 0. -/
def TLayer.expectedShape (l : TLayer) (lead : List Nat) (batch : Dim) : Shape :=
  batch :: lead.map some ++ if l.size = 0 then [] else [some (max l.size 1).toNat]

end Verif.Layer
