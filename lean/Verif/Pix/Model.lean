import Mathlib.Algebra.Order.Field.Basic

/-!
# Model of the image layer and of the embedding layer

Models the class `Image` of `tensorforce/core/layers/preprocessing.py` (208-270), the class `Embedding` of
`tensorforce/core/layers/embedding.py` (23-133), and what these use of TensorFlow: `tf.image.resize` (bilinear, with half pixel centers and
without antialiasing), `tf.image.rgb_to_grayscale` and `tf.nn.embedding_lookup`.

Numbers are elements of an arbitrary linearly ordered field `K`.

Simplifications:
* Rounding is left out; Python's `round` of a quotient is the rounding of the exact quotient.
* An image is a function of row, column and channel together with its shape; a batch is left out, since images are treated one by one.
* The norm of vectors is a function `norm`; the theorems say which facts about it they use.
* Of the common part of transformation layers (`layer.py` 782-843) bias and removal of the last axis are modelled; activation and dropout are left out,
  see C43.
* An embedding which does not exist raises an exception, as on a CPU.
-/

namespace Verif.Pix

inductive Err where
  /-- `TensorforceError` -/
  | tensorforce
  /-- `ValueError` or `InvalidArgumentError` of TensorFlow -/
  | tensorflow
  deriving Repr, DecidableEq

/-- The argument `grayscale`. -/
inductive Gray (K : Type) where
  | off
  | on
  | weights (l : List K)
  deriving Repr, DecidableEq

structure Shape where
  height : Nat
  width : Nat
  channels : Nat
  deriving Repr, DecidableEq

/-- Python's `round(a / b)`: to the nearest number, and to the even one of two. -/
def roundDiv (a : Int) (b : Nat) : Int :=
  if 2 * (a % b) < b then a / b
  else if (b : Int) < 2 * (a % b) then a / b + 1
  else if (a / b) % 2 = 0 then a / b else a / b + 1

/-- Lines 244-250: the size of the resized image, if it is resized. -/
def target (height width : Option Int) (s : Shape) : Option (Int × Int) :=
  match height, width with
  | some h, some w => some (h, w)
  | some h, none => some (h, roundDiv (h * s.width) s.height)
  | none, some w => some (roundDiv (w * s.height) s.width, w)
  | none, none => none

/-- Lines 252-253. -/
def outChannels {K : Type} (g : Gray K) (c : Nat) : Nat :=
  match g with
  | .off => c
  | _ => 1

/-- `output_spec`, lines 241-255; shapes with numbers which are not positive are rejected (`tensor_spec.py` 103-113 and 139-142). -/
def announce {K : Type} (height width : Option Int) (g : Gray K) (s : Shape) : Except Err Shape :=
  match target height width s with
  | none => .ok { s with channels := outChannels g s.channels }
  | some (h, w) => if 0 < h ∧ 0 < w then .ok ⟨h.toNat, w.toNat, outChannels g s.channels⟩ else .error .tensorforce

section
variable {K : Type} [Field K]

/-- The position of the center of pixel `i` of `m` in an axis of `n` pixels: the pixel below or at the position, which is at least −1, the pixel above
or at it, and the distance from the former. -/
def below (n m i : Nat) : Int := ((2 * i + 1) * n - m : Int) / (2 * m)

def above (n m i : Nat) : Int := below n m i + if ((2 * i + 1) * n - m : Int) % (2 * m) = 0 then 0 else 1

def fraction (n m i : Nat) : K := ((((2 * i + 1) * n - m : Int) % (2 * m) : Int) : K) / (2 * (m : K))

/-- Interpolation along an axis. -/
def resize1 (n m : Nat) (f : Nat → K) (i : Nat) : K :=
  f (max (below n m i) 0).toNat + (f (min (above n m i) (n - 1)).toNat - f (max (below n m i) 0).toNat) * fraction n m i

/-- `tf.image.resize` -/
def resize (s : Shape) (h w : Nat) (x : Nat → Nat → Nat → K) (i j c : Nat) : K :=
  if h = s.height ∧ w = s.width then x i j c
  else resize1 s.height h (fun a => resize1 s.width w (fun b => x a b c) j) i

/-- `tf.image.rgb_to_grayscale` -/
def rgb : List K := [2989 / 10000, 587 / 1000, 114 / 1000]

/-- Sum of the products, line 266. -/
def dot : List K → (Nat → K) → K
  | [], _ => 0
  | w :: l, f => w * f 0 + dot l (fun c => f (c + 1))

/-- Lines 262-268, for an image with `n` channels. If there is one weight or one channel it is used for all channels or weights (broadcasting). -/
def grayscale (g : Gray K) (n : Nat) (x : Nat → Nat → Nat → K) : Except Err (Nat → Nat → Nat → K) :=
  match g with
  | .off => .ok x
  | .on => if n = 3 then .ok (fun i j _ => dot rgb (x i j)) else .error .tensorflow
  | .weights l =>
    if l.length = n then .ok (fun i j _ => dot l (x i j))
    else if l.length = 1 then .ok (fun i j _ => dot (List.replicate n (l.headD 0)) (x i j))
    else if n = 1 then .ok (fun i j _ => dot l (fun _ => x i j 0))
    else .error .tensorflow

/-- `apply`, lines 257-270, for an accepted layer. -/
def apply (height width : Option Int) (g : Gray K) (s : Shape) (x : Nat → Nat → Nat → K) : Except Err (Shape × (Nat → Nat → Nat → K)) :=
  match announce height width g s with
  | .error e => .error e
  | .ok _ =>
    let r := match target height width s with
      | none => ((s.height, s.width), x)
      | some (h, w) => ((h.toNat, w.toNat), resize s h.toNat w.toNat x)
    match grayscale g s.channels r.2 with
    | .error e => .error e
    | .ok y => .ok (⟨r.1.1, r.1.2, outChannels g s.channels⟩, y)

end

/-- Type of the input of an embedding layer. -/
inductive Input where
  | bool
  | int (numValues : Option Nat)
  | float
  deriving Repr, DecidableEq

/-- The number of embeddings: input type (lines 77-78), and lines 95-114; the variable (lines 122-126) needs a positive number. -/
def embeddings (num : Option Int) (i : Input) : Except Err Nat :=
  match i with
  | .float => .error .tensorforce
  | .bool =>
    match num with
    | none => .ok 2
    | some z => if 0 < z then .ok z.toNat else .error .tensorforce
  | .int v =>
    match num with
    | none =>
      match v with
      | none => .error .tensorforce
      | some n => if 0 < n then .ok n else .error .tensorforce
    | some z => if 0 < z then .ok z.toNat else .error .tensorforce

/-- `max(size, 1)`, `layer.py` line 791. -/
def vectorSize (size : Int) : Nat := (max size 1).toNat

/-- `output_spec`, lines 80-90. -/
def embedShape (size : Int) (shape : List Nat) : List Nat := if size = 0 then shape else shape ++ [vectorSize size]

section
variable {K : Type} [Field K] [LinearOrder K]

/-- `tf.clip_by_norm` of an embedding -/
def clip (norm : List K → K) (maxNorm : Option K) (v : List K) : List K :=
  match maxNorm with
  | none => v
  | some m => v.map (fun x => x * m / max (norm v) m)

/-- `tf.nn.embedding_lookup` (lines 128-133) and the bias. -/
def lookup (norm : List K → K) (maxNorm : Option K) (weights : List (List K)) (bias : Option (List K)) (x : Int) : Except Err (List K) :=
  if x < 0 then .error .tensorflow
  else match weights[x.toNat]? with
    | none => .error .tensorflow
    | some v =>
      match bias with
      | none => .ok (clip norm maxNorm v)
      | some b => .ok (List.zipWith (· + ·) (clip norm maxNorm v) b)

/-- All entries of a state. -/
def lookupAll (norm : List K → K) (maxNorm : Option K) (weights : List (List K)) (bias : Option (List K)) : List Int → Except Err (List (List K))
  | [] => .ok []
  | x :: l =>
    match lookup norm maxNorm weights bias x with
    | .error e => .error e
    | .ok v =>
      match lookupAll norm maxNorm weights bias l with
      | .error e => .error e
      | .ok vs => .ok (v :: vs)

end

end Verif.Pix
