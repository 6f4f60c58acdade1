import Mathlib.Algebra.Order.Field.Basic

/-!
# Model of the creation of variables

Models the method `Module.variable` of `tensorforce/core/module.py` (521-649) and the calls of it for the weights and biases of the dense layer
(`layers/dense.py` 88-101), of the convolutional layers (`layers/convolution.py` 116-129, 255-269, 385-398, 553-567), of the embedding layer
(`layers/embedding.py` 118-126) and of transformation layers in general (`layers/layer.py` 812-827).

Numbers of type float are elements of an arbitrary linearly ordered field `K`.

Simplifications:
* Rounding is left out.
* Values are listed in the order of memory (row-major), so that the entry of row `i` and column `j` of a matrix with `k` columns is number `i * k + j`.
* The square root, the singular value decomposition and the random numbers are arguments; the theorems say which facts about them they use.
* An initializer is a Python number, an array of NumPy, one of the names, or something else; tensors of TensorFlow are left out, no module uses them.
* The type and the sizes of the specification are known; a size which is not is given as 0.
-/

namespace Verif.Init

inductive Err where
  /-- `TensorforceError` -/
  | tensorforce
  /-- `IndexError` -/
  | index
  /-- `ValueError` or `TypeError` of TensorFlow -/
  | tensorflow
  deriving Repr, DecidableEq

inductive Kind where
  | bool
  | int
  | float
  deriving Repr, DecidableEq

/-- A number of Python, and an entry of a variable. -/
inductive Num (K : Type) where
  | bool (b : Bool)
  | int (z : Int)
  | float (x : K)
  deriving Repr, DecidableEq

/-- The names of lines 537-539. -/
inductive Name where
  | constant
  | normal
  | normalRelu
  | ones
  | orthogonal
  | orthogonalRelu
  | zeros
  | unknown
  deriving Repr, DecidableEq

/-- The argument `initializer`; the type of an array is left out (`none`) if it is none of `bool`, `int64` and `float32`. -/
inductive Start (K : Type) where
  | number (x : Num K)
  | array (kind : Option Kind) (shape : List Nat) (values : Nat → Num K)
  | name (n : Name)
  | other

structure Spec where
  kind : Kind
  shape : List Nat
  numValues : Option Nat
  deriving Repr, DecidableEq

structure Var (K : Type) where
  name : List Char
  kind : Kind
  shape : List Nat
  trainable : Bool
  saved : Bool
  values : Nat → Num K

/-- `is_underspecified`, `tensor_spec.py` 103-112. -/
def underspecified (s : Spec) : Bool :=
  s.shape.any (fun x => x == 0) || (s.kind == .int && s.numValues == some 0)

section
variable {K : Type}

/-- `isinstance(x, spec.py_type())`; truth values are integers in Python. -/
def isPy (k : Kind) (x : Num K) : Bool :=
  match x with
  | .bool _ => k == .bool || k == .int
  | .int _ => k == .int
  | .float _ => k == .float

/-- `tf.constant`, lines 580 and 639, for numbers with `isPy`; truth values are not converted to integers. -/
def constant (k : Kind) (x : Num K) : Except Err (Num K) :=
  match k, x with
  | .int, .bool _ => .error .tensorflow
  | _, _ => .ok x

/-- Lines 540-550. -/
def checkInitializer (s : Spec) (i : Start K) : Except Err Unit :=
  match i with
  | .number x => if isPy s.kind x then .ok () else .error .tensorforce
  | .array k _ _ => if k = some s.kind then .ok () else .error .tensorforce
  | .name .unknown => .error .tensorforce
  | .name _ => .ok ()
  | .other => .error .tensorforce

/-- Lines 552-563. -/
def checkScale (s : Spec) (i : Start K) (scale : Option (Num K)) : Except Err Unit :=
  match scale with
  | none => .ok ()
  | some x =>
    match i with
    | .name .constant | .name .orthogonal | .name .orthogonalRelu => if isPy s.kind x then .ok () else .error .tensorforce
    | _ => .error .tensorforce

/-- Lines 565-573; `none` is an argument which is no truth value. -/
def checkTrainable (s : Spec) (trainable : Option Bool) : Except Err Bool :=
  match trainable with
  | none => .error .tensorforce
  | some t => if t && s.kind != .float then .error .tensorforce else .ok t

def zero [Zero K] (k : Kind) : Num K :=
  match k with
  | .bool => .bool false
  | .int => .int 0
  | .float => .float 0

def one [One K] (k : Kind) : Num K :=
  match k with
  | .bool => .bool true
  | .int => .int 1
  | .float => .float 1

end

/-- `util.product` -/
def product (l : List Nat) : Nat := l.foldl (· * ·) 1

/-- The numbers of rows and columns, `product(shape[:-1])` and `shape[-1]`. -/
def rows (shape : List Nat) : Nat := product shape.dropLast

def columns (shape : List Nat) : Nat := shape.getLast?.getD 1

section
variable {K : Type} [Field K] [LinearOrder K]

/-- What is used of NumPy and TensorFlow: the square root, the singular value decomposition without full matrices of a matrix with given numbers of rows
and columns, and random numbers with standard normal distribution. -/
structure Numeric (K : Type) where
  sqrt : K → K
  svd : Nat → Nat → (Nat → Nat → K) → (Nat → Nat → K) × (Nat → Nat → K)
  draw : Nat → K

/-- Lines 602-605. -/
def stddev (N : Numeric K) (relu : Bool) (shape : List Nat) : Except Err K :=
  if relu then .ok (min (1 / 10) (N.sqrt (2 / (rows shape : K))))
  else match shape.getLast? with
    | none => .error .index
    | some k => .ok (min (1 / 10) (N.sqrt (2 / ((rows shape : K) + (k : K)))))

/-- Lines 620-622: `u` has as many columns as the smaller one of rows and columns. -/
def orthogonal (N : Numeric K) (n k : Nat) : Nat → Nat → K :=
  let r := N.svd n k (fun i j => N.draw (i * k + j))
  if min n k = k then r.1 else r.2

/-- Lines 625-631. -/
def checkPositive (scale : Option (Num K)) : Except Err K :=
  match scale with
  | some (.float x) => if x = 1 then .ok 1 else if x ≤ 0 then .error .tensorforce else .ok x
  | _ => .ok 1

/-- Lines 607-632. -/
def orthogonalValues (N : Numeric K) (s : Spec) (relu : Bool) (scale : Option (Num K)) : Except Err (Nat → Num K) :=
  if s.kind ≠ .float then .error .tensorforce
  else if s.shape.length < 2 then .error .tensorforce
  else match checkPositive scale with
    | .error e => .error e
    | .ok c =>
      let o := orthogonal N (rows s.shape) (columns s.shape)
      let g := if relu then N.sqrt 2 else 1
      .ok (fun p => .float (o (p / columns s.shape) (p % columns s.shape) * g * c))

/-- Lines 595-606. -/
def normalValues (N : Numeric K) (s : Spec) (relu : Bool) : Except Err (Nat → Num K) :=
  if s.kind ≠ .float then .error .tensorforce
  else match stddev N relu s.shape with
    | .error e => .error e
    | .ok d => .ok (fun p => .float (N.draw p * d))

/-- Lines 637-640. -/
def constantValues (s : Spec) (scale : Option (Num K)) : Except Err (Nat → Num K) :=
  match scale with
  | none => .error .tensorflow
  | some x =>
    match constant s.kind x with
    | .error e => .error e
    | .ok y => .ok (fun _ => y)

/-- Lines 579-640: the initial values. -/
def initial (N : Numeric K) (s : Spec) (i : Start K) (scale : Option (Num K)) : Except Err (Nat → Num K) :=
  match i with
  | .number x =>
    match constant s.kind x with
    | .error e => .error e
    | .ok y => .ok (fun _ => y)
  | .array _ shape f => if shape = s.shape then .ok f else .error .tensorforce
  | .name .normal => normalValues N s false
  | .name .normalRelu => normalValues N s true
  | .name .orthogonal => orthogonalValues N s false scale
  | .name .orthogonalRelu => orthogonalValues N s true scale
  | .name .zeros => .ok (fun _ => zero s.kind)
  | .name .ones => .ok (fun _ => one s.kind)
  | .name .constant => constantValues s scale
  | .name .unknown | .other => .error .tensorforce

/-- Line 528. -/
def cleaned (name : List Char) : List Char := name.map (fun c => if c = '/' then '_' else c)

/-- `Module.variable`, lines 521-649; `none` stands for names and flags of another type. -/
def create (N : Numeric K) (name : Option (List Char)) (s : Spec) (i : Start K) (scale : Option (Num K)) (trainable saved : Option Bool) :
    Except Err (Var K) :=
  match name with
  | none => .error .tensorforce
  | some name =>
    if underspecified s then .error .tensorforce
    else match checkInitializer s i with
      | .error e => .error e
      | .ok _ =>
        match checkScale s i scale with
        | .error e => .error e
        | .ok _ =>
          match checkTrainable s trainable with
          | .error e => .error e
          | .ok t =>
            match saved with
            | none => .error .tensorforce
            | some d =>
              match initial N s i scale with
              | .error e => .error e
              | .ok f => .ok ⟨cleaned name, s.kind, s.shape, t, d, f⟩

/-- The shapes of weights. -/
inductive Layer where
  /-- `layers/dense.py` 98 -/
  | dense (input size : Nat)
  /-- `layers/convolution.py` 126 and 395 -/
  | conv1d (window input size : Nat)
  /-- `layers/convolution.py` 266 and 564 -/
  | conv2d (window1 window2 input size : Nat)
  deriving Repr, DecidableEq

def Layer.shape : Layer → List Nat
  | .dense n k => [n, k]
  | .conv1d w n k => [w, n, k]
  | .conv2d w1 w2 n k => [w1, w2, n, k]

/-- The weights of a layer, with activation `relu` or another. -/
def weights (N : Numeric K) (l : Layer) (relu : Bool) (scale : Num K) (trainable : Bool) : Except Err (Var K) :=
  create N (some "weights".toList) ⟨.float, l.shape, none⟩ (.name (if relu then .orthogonalRelu else .orthogonal)) (some scale) (some trainable) (some true)

/-- `layers/layer.py` 822-825 -/
def bias (N : Numeric K) (size : Nat) (trainable : Bool) : Except Err (Var K) :=
  create N (some "bias".toList) ⟨.float, [size], none⟩ (.name .zeros) none (some trainable) (some true)

/-- `layers/embedding.py` 118-126 -/
def embedding (N : Numeric K) (number size : Nat) (relu : Bool) (trainable : Bool) : Except Err (Var K) :=
  create N (some "embeddings".toList) ⟨.float, [number, size], none⟩ (.name (if relu then .normalRelu else .normal)) none (some trainable) (some true)

end

end Verif.Init
