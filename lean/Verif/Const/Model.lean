import Mathlib.Algebra.Order.Field.Rat
import Mathlib.Data.Rat.Floor

/-!
# Model of the constant agent

Models `tensorforce/core/models/constant.py` (28-112) and the checks around it in `tensorforce/core/models/model.py` (526-562 and
589-628).

Simplifications:
* An action is its number of entries per time step (the product of its shape); the entries of all time steps are one list, time step by
  time step, and a mask is a list of rows, one for each entry.
* Numbers are exact rationals; infinities are left out.
* An action value given by the user is a boolean, an integer, a float, or something that cannot be converted. Bounds are single numbers
  or arrays of several numbers; of the latter only the errors to which they lead are modelled.
* Checks of the input other than those of the masks are left out (see C116).
* Exceptions when the graph is built are raised when the agent is created, as `initialize` (model.py 388-401) traces both functions.
-/

namespace Verif.Const

inductive Err where
  /-- The given value cannot be converted to the type of the action. -/
  | conversion
  /-- `TensorforceError.value`: the given value is out of bounds. -/
  | value
  /-- The truth value of an array is ambiguous. -/
  | ambiguous
  /-- A float for a tensor of integers. -/
  | dtype
  /-- An array as value of `tf.fill`. -/
  | fill
  /-- There is no mask for an integer action without number of values. -/
  | key
  /-- "at least one action has to be valid" -/
  | noneValid
  /-- An index out of range. -/
  | gather
  /-- The action is not in its space. -/
  | space
  /-- "Action mask check." -/
  | mask
  deriving Repr, DecidableEq

/-- A value given by the user. -/
inductive Given where
  | bool (b : Bool)
  | int (z : Int)
  | float (x : ℚ)
  | other
  deriving Repr, DecidableEq

/-- An entry of an action. -/
inductive Val where
  | bool (b : Bool)
  | int (z : Int)
  | float (x : ℚ)
  deriving Repr, DecidableEq

inductive Kind where
  | bool
  | int (numValues : Option Nat)
  | float
  deriving Repr, DecidableEq

inductive Bound where
  | num (x : ℚ)
  | array
  deriving Repr, DecidableEq

structure Action where
  kind : Kind
  lo : Option Bound
  hi : Option Bound
  size : Nat
  deriving Repr, DecidableEq

/-- `enable_int_action_masking` and `create_tf_assertions` -/
structure Config where
  masking : Bool
  assertions : Bool
  deriving Repr, DecidableEq

/-- Python's `bool(x)`. -/
def toBool : Given → Option Bool
  | .bool b => some b
  | .int z => some (decide (z ≠ 0))
  | .float x => some (decide (x ≠ 0))
  | .other => none

/-- Python's `int(x)`. -/
def toInt : Given → Option Int
  | .bool b => some (if b then 1 else 0)
  | .int z => some z
  | .float x => some (if 0 ≤ x then ⌊x⌋ else ⌈x⌉)
  | .other => none

/-- Python's `float(x)`. -/
def toFloat : Given → Option ℚ
  | .bool b => some (if b then 1 else 0)
  | .int z => some z
  | .float x => some x
  | .other => none

/-- `spec.py_type()(value)`, constant.py line 42. -/
def convert (kind : Kind) (g : Given) : Option Val :=
  match kind with
  | .bool => (toBool g).map .bool
  | .int _ => (toInt g).map .int
  | .float => (toFloat g).map .float

/-- The number to compare; booleans are not compared. -/
def Val.number : Val → Option ℚ
  | .bool _ => none
  | .int z => some z
  | .float x => some x

/-- Whether a value is below a bound; `none` is an exception. -/
def below (v : Val) (b : Option Bound) : Option Bool :=
  match v.number with
  | none => some false
  | some x =>
    match b with
    | none => some false
    | some .array => none
    | some (.num l) => some (decide (x < l))

/-- Whether a value is above a bound. -/
def above (v : Val) (b : Option Bound) : Option Bool :=
  match v.number with
  | none => some false
  | some x =>
    match b with
    | none => some false
    | some .array => none
    | some (.num h) => some (decide (h < x))

/-- One given value, lines 42-53. -/
def checkGiven (a : Action) (g : Given) : Except Err Val :=
  match convert a.kind g with
  | none => .error .conversion
  | some v =>
    match below v a.lo with
    | none => .error .ambiguous
    | some true => .error .value
    | some false =>
      match above v a.hi with
      | none => .error .ambiguous
      | some true => .error .value
      | some false => .ok v

/-- `ConstantModel.__init__`, lines 37-53: the actions are looked up in the given values. -/
def givenValues (given : List (String × Given)) : List (String × Action) → Except Err (List (String × Val))
  | [] => .ok []
  | (name, a) :: rest =>
    match given.lookup name with
    | none => givenValues given rest
    | some g =>
      match checkGiven a g with
      | .error e => .error e
      | .ok v =>
        match givenValues given rest with
        | .error e => .error e
        | .ok vs => .ok ((name, v) :: vs)

/-- What the graph does for an action. -/
inductive Plan where
  | fill (v : Val)
  | first (numValues : Nat)
  deriving Repr, DecidableEq

/-- `tf_util.constant(value=…, dtype=spec.type)` and `tf.fill` for a bound. -/
def fillBound (kind : Kind) (b : Bound) : Except Err Plan :=
  match b with
  | .array => .error .fill
  | .num x =>
    match kind with
    | .int _ => .ok (.fill (.int ⌊x⌋))
    | _ => .ok (.fill (.float x))

/-- The middle of the bounds, lines 92-96: a float, also for integer actions. -/
def fillMiddle (kind : Kind) (l h : Bound) : Except Err Plan :=
  match kind with
  | .int _ => .error .dtype
  | _ =>
    match l with
    | .array => .error .fill
    | .num x =>
      match h with
      | .array => .error .fill
      | .num y => .ok (.fill (.float (x + 1 / 2 * (y - x))))

/-- Lines 91-110. -/
def planBounds (a : Action) : Except Err Plan :=
  match a.kind with
  | .bool => .ok (.fill (.bool false))
  | kind =>
    match a.lo with
    | some l =>
      match a.hi with
      | some h => fillMiddle kind l h
      | none => fillBound kind l
    | none =>
      match a.hi with
      | some h => fillBound kind h
      | none =>
        match kind with
        | .int _ => .ok (.fill (.int 0))
        | _ => .ok (.fill (.float 0))

/-- Lines 67-110. -/
def plan (c : Config) (a : Action) (v : Option Val) : Except Err Plan :=
  match v with
  | some v => .ok (.fill v)
  | none =>
    match a.kind with
    | .int (some n) => if c.masking then .ok (.first n) else planBounds a
    | _ => planBounds a

/-- The mask assertions need a mask for every integer action, model.py lines 545-554 and 589-599. -/
def maskExists (c : Config) (a : Action) : Bool :=
  match a.kind with
  | .int none => !(c.assertions && c.masking)
  | _ => true

/-- The graph of all actions. -/
def plans (c : Config) (values : List (String × Val)) : List (String × Action) → Except Err (List (Action × Plan))
  | [] => .ok []
  | (name, a) :: rest =>
    if !maskExists c a then .error .key
    else
      match plan c a (values.lookup name) with
      | .error e => .error e
      | .ok p =>
        match plans c values rest with
        | .error e => .error e
        | .ok ps => .ok ((a, p) :: ps)

/-- Creation of the agent. -/
def create (c : Config) (actions : List (String × Action)) (given : Option (List (String × Given))) : Except Err (List (Action × Plan)) :=
  match givenValues (given.getD []) actions with
  | .error e => .error e
  | .ok values => plans c values actions

/-- `tf.boolean_mask` of the tiled range, lines 76-83. -/
def choices (n : Nat) : List (List Bool) → List Nat
  | [] => []
  | row :: rows => (((List.range n).zip row).filter (·.2)).map (·.1) ++ choices n rows

/-- `num_valid`, lines 84-86. -/
def numValid (mask : List (List Bool)) : List Nat := mask.map (·.count true)

/-- `tf.math.cumsum(exclusive=True)`, line 87. -/
def offsets (acc : Nat) : List Nat → List Nat
  | [] => []
  | n :: ns => acc :: offsets (acc + n) ns

/-- `tf.gather`, line 88. -/
def gather (params : List Nat) : List Nat → Option (List Nat)
  | [] => some []
  | i :: is =>
    match params[i]? with
    | none => none
    | some x =>
      match gather params is with
      | none => none
      | some xs => some (x :: xs)

/-- The action of a batch, lines 67-110. -/
def execute (batch : Nat) (a : Action) (p : Plan) (mask : List (List Bool)) : Except Err (List Val) :=
  match p with
  | .fill v => .ok (List.replicate (batch * a.size) v)
  | .first n =>
    match gather (choices n mask) (offsets 0 (numValid mask)) with
    | none => .error .gather
    | some xs => .ok (xs.map (fun (x : Nat) => Val.int x))

/-- Whether the action has a mask, model.py lines 132-137. -/
def hasMask (c : Config) (a : Action) : Bool :=
  match a.kind with
  | .int (some _) => c.masking
  | _ => false

/-- The assertion before acting, model.py lines 545-554 and 589-599. -/
def maskOk (c : Config) (a : Action) (mask : List (List Bool)) : Bool :=
  if c.assertions && hasMask c a then mask.all (fun row => row.any id) else true

/-- `actions_spec.tf_assert`, model.py line 617. -/
def inSpace (a : Action) (v : Val) : Bool := below v a.lo == some false && above v a.hi == some false

/-- The mask at an action. -/
def allowed (row : List Bool) (v : Val) : Bool :=
  match v with
  | .int z => if 0 ≤ z then row.getD z.toNat false else false
  | _ => false

/-- The assertions after acting, model.py lines 614-628. -/
def afterOk (c : Config) (a : Action) (mask : List (List Bool)) (vs : List Val) : Except Err (List Val) :=
  if !c.assertions then .ok vs
  else if !vs.all (inSpace a) then .error .space
  else if hasMask c a && !(mask.zip vs).all (fun e => allowed e.1 e.2) then .error .mask
  else .ok vs

/-- `Model.independent_act` for one action, model.py lines 514-567. -/
def independentAct (c : Config) (batch : Nat) (a : Action) (p : Plan) (mask : List (List Bool)) : Except Err (List Val) :=
  if !maskOk c a mask then .error .noneValid else execute batch a p mask

/-- `Model.act` for one action, model.py lines 570-646. -/
def act (c : Config) (batch : Nat) (a : Action) (p : Plan) (mask : List (List Bool)) : Except Err (List Val) :=
  if !maskOk c a mask then .error .noneValid
  else
    match execute batch a p mask with
    | .error e => .error e
    | .ok vs => afterOk c a mask vs

end Verif.Const
