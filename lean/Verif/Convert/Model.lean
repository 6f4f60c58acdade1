/-!
# Specifications of tensors: creation, saving, conversion of values, checks of outputs

Source: `tensorforce/core/utils/tensor_spec.py` (lines 44-71, 103-133, 149-238, 240-283, 507-523, 572-757),
`core/utils/tensors_spec.py` (lines 30-75).

Simplifications.
* Types and shapes are fully given: no tuple of types, no unknown dimension `None` (but dimensions 0 and -1).
* Numbers are rationals together with `nan` and infinities; rounding to 32 bit and overflow are left out.  Bounds are finite.
* Arrays are functions on indices.  What numpy makes of `nan` or an infinity as an integer is a parameter `junk`.
* Nested specifications are lists of names and specifications.
-/

namespace Verif.Convert

inductive Base where
  | bool | int | float
  deriving Repr, DecidableEq

inductive Err where
  /-- `TensorforceError.unexpected` -/
  | unexpected
  | shape
  | finite
  | numValues
  | minimum
  | maximum
  | type
  | keys
  | invalid (argument : String)
  | value (argument : String)
  /-- numpy's `ValueError` for shapes which cannot be broadcast -/
  | broadcast
  /-- `AssertionError` -/
  | assertion
  deriving Repr, DecidableEq

/-- A number in an array. -/
inductive Elem where
  | num (q : Rat)
  | nan
  | inf (positive : Bool)
  deriving Repr, DecidableEq

/-- An array: its shape, and its entries by index. -/
structure Arr (α : Type) where
  shape : List Nat
  get : List Nat → α

/-- All indices of an array. -/
def indices : List Nat → List (List Nat)
  | [] => [[]]
  | n :: r => (List.range n).flatMap (fun i => (indices r).map (i :: ·))

/-- An array or tensor with its type. -/
structure Typed where
  dtype : Base
  arr : Arr Elem

/-- `min_value` or `max_value` if given. -/
inductive Bound where
  | one (q : Rat)
  | many (a : Arr Rat)

structure Spec where
  type : Base
  shape : List Int
  min : Option Bound
  max : Option Bound
  num : Option Int

/-! ## Broadcasting -/

/-- The common shape of two arrays, both given in reverse. -/
def bshapeRev : List Nat → List Nat → Option (List Nat)
  | [], e => some e
  | d, [] => some d
  | d :: r, e :: r' =>
    if d = e ∨ e = 1 then (bshapeRev r r').map (d :: ·)
    else if d = 1 then (bshapeRev r r').map (e :: ·)
    else none

def bshape (s t : List Nat) : Option (List Nat) := (bshapeRev s.reverse t.reverse).map List.reverse

/-- The index in an array of the given shape which belongs to an index of the common shape. -/
def bindex (shape i : List Nat) : List Nat :=
  List.zipWith (fun d k => if d = 1 then 0 else k) shape (i.drop (i.length - shape.length))

/-- `p(x, b).any()` -/
def anyPair {α β : Type} (p : α → β → Bool) (x : Arr α) (b : Arr β) : Except Err Bool :=
  match bshape x.shape b.shape with
  | none => .error .broadcast
  | some s => .ok ((indices s).any (fun i => p (x.get (bindex x.shape i)) (b.get (bindex b.shape i))))

/-! ## Conversion (lines 149-238) -/

/-- Lines 103-112. -/
def underspecified (s : Spec) : Bool :=
  s.shape.any (fun d => d ≤ 0) || (match s.type, s.num with | .int, some n => decide (n ≤ 0) | _, _ => false)

/-- `int(q)` -/
def truncate (q : Rat) : Rat := if 0 ≤ q then (q.floor : Rat) else (q.ceil : Rat)

/-- One number converted by `np.asarray(value, dtype)`. -/
def cast (junk : Int) (type : Base) (e : Elem) : Elem :=
  match type, e with
  | .float, e => e
  | .int, .num q => .num (truncate q)
  | .int, _ => .num junk
  | .bool, .num q => .num (if q = 0 then 0 else 1)
  | .bool, _ => .num 1

def notFinite : Elem → Bool
  | .num _ => false
  | _ => true

def below : Elem → Rat → Bool
  | .num a, q => decide (a < q)
  | .nan, _ => false
  | .inf positive, _ => !positive

def above : Elem → Rat → Bool
  | .num a, q => decide (q < a)
  | .nan, _ => false
  | .inf positive, _ => positive

/-- `p(value, bound).any()` -/
def anyBound (p : Elem → Rat → Bool) (x : Arr Elem) : Bound → Except Err Bool
  | .one q => .ok ((indices x.shape).any (fun i => p (x.get i) q))
  | .many b => anyPair p x b

def checkMin (x : Arr Elem) : Option Bound → Except Err Unit
  | none => .ok ()
  | some b => do if ← anyBound below x b then .error .minimum else .ok ()

def checkMax (x : Arr Elem) : Option Bound → Except Err Unit
  | none => .ok ()
  | some b => do if ← anyBound above x b then .error .maximum else .ok ()

/-- Lines 157-191 and, with the same conditions, 208-232. -/
def checkValue (s : Spec) (batched : Bool) (x : Arr Elem) : Except Err Unit :=
  if (x.shape.drop (if batched then 1 else 0)).map Int.ofNat ≠ s.shape then .error .shape
  else if (indices x.shape).any (fun i => notFinite (x.get i)) then .error .finite
  else
    match s.type, s.num with
    | .bool, _ => .ok ()
    | .int, some n =>
      if (indices x.shape).any (fun i => below (x.get i) 0) || (indices x.shape).any (fun i => !below (x.get i) n)
      then .error .numValues
      else .ok ()
    | _, _ => do
      checkMin x s.min
      checkMax x s.max

/-- `TensorSpec.to_tensor` -/
def toTensor (junk : Int) (s : Spec) (batched : Bool) (value : Typed) : Except Err Typed :=
  if underspecified s then .error .unexpected
  else do
    let x : Arr Elem := ⟨value.arr.shape, fun i => cast junk s.type (value.arr.get i)⟩
    checkValue s batched x
    .ok ⟨s.type, x⟩

/-- A Python object or an array. -/
inductive Result where
  | item (type : Base) (e : Elem)
  | array (t : Typed)

/-- `TensorSpec.from_tensor` -/
def fromTensor (s : Spec) (batched : Bool) (t : Typed) : Except Err Result :=
  if underspecified s then .error .unexpected
  else if t.dtype ≠ s.type then .error .type
  else do
    checkValue s batched t.arr
    if s.shape = [] ∧ batched = false then .ok (.item t.dtype (t.arr.get []))
    else .ok (.array t)

/-- Dictionaries: `TensorsSpec.to_tensor` (`tensors_spec.py:30-49`). -/
def toTensorEach (junk : Int) (batched recover : Bool) (values : List (String × Typed)) :
    List (String × Spec) → Except Err (List (String × Typed))
  | [] => .ok []
  | (name, s) :: rest =>
    match values.lookup name with
    | none => .error .assertion
    | some v => do
      let t ← toTensor junk s batched v
      let ts ← toTensorEach junk batched recover values rest
      .ok ((name, t) :: ts)

def sameKeys {α β : Type} (a : List (String × α)) (b : List (String × β)) : Bool :=
  a.all (fun x => b.any (fun y => x.1 == y.1)) && b.all (fun y => a.any (fun x => x.1 == y.1))

def toTensors (junk : Int) (batched recover : Bool) (specs : List (String × Spec)) (values : List (String × Typed)) :
    Except Err (List (String × Typed)) :=
  if !recover && !sameKeys values specs then .error .keys
  else toTensorEach junk batched recover values specs

/-! ## Checks of outputs of environments (`np_assert`, lines 240-283) -/

/-- What an environment returns. -/
inductive Output where
  /-- a numpy array -/
  | array (dtype : Base) (a : Arr Elem)
  /-- a numpy scalar -/
  | generic (dtype : Base) (e : Elem)
  /-- a Python number -/
  | python (dtype : Base) (e : Elem)

/-- The condition of lines 247-252. -/
def arrayType (s : Spec) (dtype : Base) : Bool :=
  dtype == s.type || (s.type == .float && dtype == .int) || (s.type == .int && !(dtype == .bool && s.num != some 2))

def checkArray (s : Spec) (batched : Bool) (dtype : Base) (shape : List Nat) : Except Err Unit :=
  if !arrayType s dtype then .error .type
  else if (shape.drop (if batched then 1 else 0)).map Int.ofNat ≠ s.shape then .error .shape
  else .ok ()

/-- `TensorSpec.np_assert`.  `np.asarray` in line 245 turns numbers into arrays without dimensions. -/
def npAssert (s : Spec) (batched : Bool) (x : Output) : Except Err Unit :=
  match x with
  | .array dtype a => checkArray s batched dtype a.shape
  | .generic dtype _ =>
    if batched = true ∨ s.shape ≠ [] then checkArray s batched dtype []
    else if dtype = s.type ∨ (s.type = .float ∧ dtype = .int) then .ok ()
    else .error .type
  | .python dtype _ =>
    if batched = true ∨ s.shape ≠ [] then checkArray s batched dtype []
    else
      match s.type, dtype with
      | .bool, .bool => .ok ()
      | .int, .int => .ok ()
      | .int, .bool => .ok ()
      | .float, .bool => .ok ()
      | .float, .int => .ok ()
      | .float, .float => .ok ()
      | _, _ => .error .type

/-- `TensorsSpec.np_assert` (`tensors_spec.py:64-75`): `batched` is not passed on. -/
def npAssertAll (specs : List (String × Spec)) (_batched : Bool) (values : List (String × Output)) : Except Err Unit :=
  match specs with
  | [] => .ok ()
  | (name, s) :: rest =>
    match values.lookup name with
    | none => .error .assertion
    | some x => do
      npAssert s false x
      npAssertAll rest _batched values

/-! ## Creation (lines 44-71, 572-757) and saving (lines 114-133) -/

/-- A bound as it is given: a number, a numpy array, or (nested) lists. -/
inductive Raw where
  | one (q : Rat)
  | array (a : Arr Rat)
  | lists (a : Arr Rat)

/-- `util.epsilon` -/
def epsilon : Rat := 1 / 1000000

def toType (type : Base) (q : Rat) : Rat := if type = .int then truncate q else q

/-- Lines 665-680: Python's `int` or `float` of the bound if possible (also for arrays with one entry), else an array. -/
def convertBound (type : Base) : Raw → Bound
  | .one q => .one (toType type q)
  | .array a =>
    match indices a.shape with
    | [i] => .one (toType type (a.get i))
    | _ => .many ⟨a.shape, fun i => toType type (a.get i)⟩
  | .lists a => .many ⟨a.shape, fun i => toType type (a.get i)⟩

/-- Lines 682-689. -/
def boundShape (shape : List Int) : Bound → Bool
  | .one _ => true
  | .many a => a.shape.map Int.ofNat == shape.take a.shape.length && decide (a.shape.length ≤ shape.length)

def asArr : Bound → Arr Rat
  | .one q => ⟨[], fun _ => q⟩
  | .many a => a

/-- Lines 696-701 and 715-726: the maximum is below the minimum (or too close). -/
def tooClose (max min : Bound) : Except Err Bool := anyPair (fun h l => decide (h < l + epsilon)) (asArr max) (asArr min)

/-- `self.min_value = min` -/
def setMin (type : Base) (shape : List Int) (min : Raw) : Except Err Bound :=
  if type = .bool then .error (.invalid "min_value")
  else if !boundShape shape (convertBound type min) then .error (.value "min_value")
  else .ok (convertBound type min)

/-- `self.max_value = max` -/
def setMax (type : Base) (shape : List Int) (min : Option Bound) (max : Raw) : Except Err Bound :=
  if type = .bool then .error (.invalid "max_value")
  else if !boundShape shape (convertBound type max) then .error (.value "max_value")
  else
    match min with
    | none => .ok (convertBound type max)
    | some l => do
      if ← tooClose (convertBound type max) l then .error (.value "max_value")
      else .ok (convertBound type max)

/-- `self.num_values = num`: minimum and maximum follow. -/
def setNum (s : Spec) (num : Int) : Except Err Spec :=
  if s.type ≠ .int then .error (.invalid "num_values")
  else if num < 0 then .error (.value "num_values")
  else if 0 < num then .ok { s with num := some num, min := some (.one 0), max := some (.one (num - 1)) }
  else .ok { s with num := some num, min := none, max := none }

def optional {α β : Type} (f : α → Except Err β) : Option α → Except Err (Option β)
  | none => .ok none
  | some x => (f x).map some

/-- `TensorSpec.__init__` -/
def create (type : Base) (shape : List Int) (min max : Option Raw) (num : Option Int) : Except Err Spec :=
  if shape.any (fun d => d < -1) then .error (.value "shape")
  else if num.isSome && (min.isSome || max.isSome) && type != .bool then
    .error (.invalid (if type = .int then "min/max_value" else "num_values"))
  else do
    let lo ← optional (setMin type shape) min
    let hi ← optional (setMax type shape lo) max
    match num with
    | none => .ok ⟨type, shape, lo, hi, none⟩
    | some n => setNum ⟨type, shape, lo, hi, none⟩ n

/-- A specification as saved. -/
structure Json where
  type : Base
  shape : List Int
  min : Option Raw
  max : Option Raw
  num : Option Int

/-- `tolist` for arrays. -/
def saveBound : Bound → Raw
  | .one q => .one q
  | .many a => .lists a

/-- Lines 114-133. -/
def json (s : Spec) : Json :=
  match s.type, s.num with
  | .bool, _ => ⟨s.type, s.shape, none, none, none⟩
  | .int, some n => ⟨s.type, s.shape, none, none, some n⟩
  | _, _ => ⟨s.type, s.shape, s.min.map saveBound, s.max.map saveBound, none⟩

/-- `TensorSpec(**json)` -/
def load (j : Json) : Except Err Spec := create j.type j.shape j.min j.max j.num

/-- Bounds are passed on as they are. -/
def passBound : Bound → Raw
  | .one q => .one q
  | .many a => .array a

/-- Lines 507-523. -/
def copy (s : Spec) : Except Err Spec :=
  match s.type, s.num with
  | .bool, _ => create s.type s.shape none none none
  | .int, some n => create s.type s.shape none none (some n)
  | _, _ => create s.type s.shape (s.min.map passBound) (s.max.map passBound) none

end Verif.Convert
