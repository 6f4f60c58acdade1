/-!
# Model of tensor specifications and their unification

Models `tensorforce/core/utils/tensor_spec.py`: `TensorSpec.__init__` (lines 44-71) with the checks of `__setattr__`
(572-760), `unify` (340-489), and the acceptance of values as in `tf_assert` (285-338: type, shape, bounds).

Simplifications: bounds are scalars over exact rationals (no arrays); element values are rationals; `none` is an exception;
a last dimension `None` occurs only in the shape `(None,)`, as `__setattr__` allows `None` only in the first place.
-/

namespace Verif.Utils.TSpec

inductive Base where
  | bool | int | float
  deriving DecidableEq, Repr

/-- `type`: `None`, a tuple of types, or one type. -/
inductive Ty where
  | any
  | many (l : List Base)
  | one (b : Base)
  deriving DecidableEq, Repr

/-- A dimension: `None`, or an integer (0 and -1 are unspecified). -/
abbrev Dim := Option Int

structure Spec where
  ty : Ty
  shape : Option (List Dim)
  min : Option Rat
  max : Option Rat
  num : Option Nat
  deriving DecidableEq

/-- `self.type == 'int' or 'int' in self.type`. -/
def Ty.hasInt : Ty → Bool
  | .any => false
  | .many l => l.contains .int
  | .one b => b == .int

/-- `util.epsilon`. -/
def eps : Rat := 1 / 1000000

/-- Lines 612-651. -/
def validShape : Option (List Dim) → Bool
  | none => true
  | some [] => true
  | some (d :: ds) => (match d with | none => true | some n => decide (-1 ≤ n)) &&
      ds.all fun d => match d with | none => false | some n => decide (-1 ≤ n)

/-- Lines 653-685: bounds need a single numeric type. -/
def boundOk (ty : Ty) (b : Option Rat) : Bool :=
  b.isNone || ty == .one .int || ty == .one .float

/-- Lines 715-726: `max_value` is set after `min_value`. -/
def gapOk (lo hi : Option Rat) : Bool :=
  match lo, hi with
  | some l, some h => !decide (h < l + eps)
  | _, _ => true

/-- `TensorSpec(type=…, shape=…, min_value=…, max_value=…, num_values=…)`. -/
def create (ty : Ty) (shape : Option (List Dim)) (min max : Option Rat) (num : Option Nat) : Option Spec :=
  if !validShape shape then none
  else if num.isSome && (min.isSome || max.isSome) && (ty == .one .int || ty == .one .float) then none
  else if !(boundOk ty min && boundOk ty max && gapOk min max) then none
  else
    match num with
    | none => some ⟨ty, shape, min, max, none⟩
    | some n =>
      if !ty.hasInt then none
      else if n = 0 then some ⟨ty, shape, none, none, some 0⟩
      else some ⟨ty, shape, some 0, some ((n : Rat) - 1), some n⟩

/-- Lines 341-374 (`set(..) <= set(..)` as containment). -/
def unifyTy : Ty → Ty → Option Ty
  | .any, b => some b
  | a, .any => some a
  | .many l, .many m =>
    if l.all m.contains then some (.many l)
    else if m.all l.contains then some (.many m) else none
  | .many l, .one b => if l.contains b then some (.one b) else none
  | .one a, .many m => if m.contains a then some (.one a) else none
  | .one a, .one b => if a = b then some (.one a) else none

/-- Lines 395-408 for one dimension; `None > 0` raises. -/
def unifyDim : Dim → Dim → Option Dim
  | a, b =>
    if a = some 0 then some b
    else if b = some 0 then some a
    else
      match a, b with
      | some x, some y =>
        if x = -1 ∧ 0 < y then some (some y)
        else if y = -1 ∧ 0 < x then some (some x)
        else if x = y then some (some x) else none
      | none, none => some none
      | _, _ => none

def unifyDims : List Dim → List Dim → Option (List Dim)
  | [], [] => some []
  | a :: as, b :: bs =>
    match unifyDim a b, unifyDims as bs with
    | some d, some ds => some (d :: ds)
    | _, _ => none
  | _, _ => none

/-- Lines 377-409; `()` has no last dimension, so that `self.shape[-1]` raises. -/
def unifyShape : Option (List Dim) → Option (List Dim) → Option (Option (List Dim))
  | none, b => some b
  | a, none => some a
  | some s, some o =>
    if s = [] then none
    else if s = [none] then some (some o.reverse)
    else if o = [] then none
    else if o = [none] then some (some s.reverse)
    else (unifyDims s o).map some

/-- Lines 411-428 and 430-447: the larger one, for minimum as well as maximum. -/
def larger : Option Rat → Option Rat → Option Rat
  | some a, some b => if a < b then some b else some a
  | some a, none => some a
  | none, b => b

/-- Lines 460-481. -/
def unifyNum (dtype : Ty) (a b : Spec) : Option (Option Nat) :=
  let na := if a.ty = .one .int then a.num else none
  let nb := if b.ty = .one .int then b.num else none
  if !dtype.hasInt then some none
  else
    match na, nb with
    | some n, some m => if n = 0 then some (some m) else if m = 0 then some (some n)
        else if n = m then some (some n) else none
    | some n, none => some (some n)
    | none, nb => some nb

/-- Lines 448-458: `min_value > max_value`. -/
def clash : Option Rat → Option Rat → Bool
  | some l, some h => decide (h < l)
  | _, _ => false

/-- `unify`, lines 340-489. -/
def unify (a b : Spec) : Option Spec :=
  match unifyTy a.ty b.ty with
  | none => none
  | some ty =>
    match unifyShape a.shape b.shape with
    | none => none
    | some shape =>
      let min := if ty = .one .bool then none else larger a.min b.min
      let max := if ty = .one .bool then none else larger a.max b.max
      if clash min max then none
      else
        match unifyNum ty a b with
        | none => none
        | some none => create ty shape min max none
        | some (some n) => create ty shape none none (some n)

/-- The results of the constructor. -/
def Made (a : Spec) : Prop := ∃ ty shape min max num, create ty shape min max num = some a

/-! ## Values -/

/-- A tensor value. -/
structure Value where
  base : Base
  shape : List Nat
  elems : List Rat

def tyOk : Ty → Base → Prop
  | .any, _ => True
  | .many l, b => b ∈ l
  | .one a, b => a = b

def dimOk : Dim → Nat → Prop
  | none, _ => True
  | some k, n => k ≤ 0 ∨ k = (n : Int)

def dimsOk : List Dim → List Nat → Prop
  | [], [] => True
  | d :: ds, n :: ns => dimOk d n ∧ dimsOk ds ns
  | _, _ => False

/-- A leading `None` stands for any number of dimensions. -/
def shapeOk : Option (List Dim) → List Nat → Prop
  | none, _ => True
  | some (none :: ds), s => ∃ p q, s = p ++ q ∧ dimsOk ds q
  | some ds, s => dimsOk ds s

def loOk (b : Option Rat) (x : Rat) : Prop := ∀ l, b = some l → l ≤ x
def hiOk (b : Option Rat) (x : Rat) : Prop := ∀ h, b = some h → x ≤ h

/-- The value satisfies the specification. -/
def Sat (a : Spec) (v : Value) : Prop :=
  tyOk a.ty v.base ∧ shapeOk a.shape v.shape ∧
    (v.base ≠ .bool → ∀ x ∈ v.elems, loOk a.min x ∧ hiOk a.max x)

/-- No `None` dimension. -/
def Concrete (a : Spec) : Prop := ∀ ds, a.shape = some ds → none ∉ ds

end Verif.Utils.TSpec
