/-!
# Model of action exploration and of random actions

Models the exploration part of `tensorforce/core/models/tensorforce.py`, `core_act` (1156-1269), and `RandomModel.core_act` in
`tensorforce/core/models/random.py` (34-96).

Simplifications: one action; an action tensor is the flat list of its components, its mask one row per component; random outcomes
are arguments; numbers are exact rationals, except that rounding of the product `uniform * num_valid` is an argument `rnd`, so that
32-bit arithmetic can be treated as well. `none` is an exception.
-/

namespace Verif.Explore

/-! ## Uniform choice among the valid actions -/

/-- `choices`, tensorforce.py 1211-1218 and random.py 56-63: the range tiled over the components, then `boolean_mask`. -/
def choices (n : Nat) (mask : List (List Bool)) : List Nat :=
  ((List.replicate mask.length (List.range n)).flatten.zip mask.flatten).filterMap fun c => if c.2 then some c.1 else none

/-- `num_valid`, lines 1219-1220. -/
def numValid (mask : List (List Bool)) : List Nat := mask.map (·.count true)

/-- `tf.math.cumsum(exclusive=True)`, line 1221. -/
def cumsum (acc : Nat) : List Nat → List Nat
  | [] => []
  | n :: ns => acc :: cumsum (acc + n) ns

/-- Cast of a float to an integer, towards zero. -/
def toInt (x : Rat) : Int := if 0 ≤ x then x.floor else x.ceil

/-- Lines 1222-1227. -/
def randomOffset (rnd : Rat → Rat) (u : Rat) (num : Nat) : Int := toInt (rnd (u * (num : Rat)))

/-- `tf.gather`: an index out of range raises. -/
def gather {α : Type} (params : List α) (indices : List Int) : Option (List α) :=
  indices.mapM fun i => if 0 ≤ i then params[i.toNat]? else none

/-- Lines 1208-1231, and random.py 54-74. -/
def maskedRandom (rnd : Rat → Rat) (n : Nat) (mask : List (List Bool)) (us : List Rat) : Option (List Nat) :=
  gather (choices n mask) (List.zipWith (fun (o : Nat) (r : Int) => (o : Int) + r) (cumsum 0 (numValid mask))
    (List.zipWith (randomOffset rnd) us (numValid mask)))

/-! ## Other random outcomes -/

/-- `tf.random.uniform` for an integer type: `maxval` is excluded and has to be larger than `minval`; `u` in [0, 1). -/
def uniformInt (lo hi : Int) (us : List Rat) : Option (List Int) :=
  if lo < hi then some (us.map fun u => lo + (u * ((hi - lo : Int) : Rat)).floor) else none

/-- `tf.random.uniform` for a float type. -/
def uniformFloat (lo hi : Rat) (us : List Rat) : List Rat := us.map fun u => lo + u * (hi - lo)

/-- `tf.where(is_random < exploration, random_action, action)`. -/
def choose {α : Type} (exploration : Rat) (flags : List Rat) (random action : List α) : List α :=
  List.zipWith (fun (f : Rat) (ra : α × α) => if f < exploration then ra.1 else ra.2) flags (random.zip action)

/-- Lines 1254-1261. -/
def clip (lo hi : Option Rat) (x : Rat) : Rat :=
  let x := match lo with | some l => max x l | none => x
  match hi with | some h => min x h | none => x

/-! ## Actions -/

inductive Spec where
  | bool
  | choice (numValues : Nat)                       -- int with num_values
  | int (lo hi : Option Int)                       -- int without num_values
  | float (lo hi : Option Rat)

inductive Tensor where
  | bools (xs : List Bool)
  | ints (xs : List Int)
  | floats (xs : List Rat)
  deriving DecidableEq

structure Draws where
  uniform : List Rat
  flags : List Rat
  normal : List Rat

/-- `apply_exploration` for each kind of action, lines 1193-1261. `tf.random.normal` has no integer types (line 1253). -/
def applyExploration (rnd : Rat → Rat) (masking : Bool) (spec : Spec) (mask : List (List Bool)) (exploration : Rat) (d : Draws) :
    Tensor → Option Tensor
  | .bools a => match spec with
    | .bool => some (.bools (choose exploration d.flags (d.uniform.map (· < 1/2)) a))                -- lines 1193-1201
    | _ => none
  | .ints a => match spec with
    | .choice n =>
      if masking then (maskedRandom rnd n mask d.uniform).map fun r => .ints (choose exploration d.flags (r.map Int.ofNat) a)
      else (uniformInt 0 n d.uniform).map fun r => .ints (choose exploration d.flags r a)            -- lines 1236-1246
    | _ => none
  | .floats a => match spec with
    | .float lo hi => some (.floats (List.zipWith (fun x z => clip lo hi (x + z * exploration)) a d.normal))   -- lines 1248-1261
    | _ => none

/-- Lines 1263-1269. -/
def explore (rnd : Rat → Rat) (masking : Bool) (spec : Spec) (mask : List (List Bool)) (deterministic : Bool) (exploration : Rat)
    (d : Draws) (action : Tensor) : Option Tensor :=
  if deterministic || exploration = 0 then some action else applyExploration rnd masking spec mask exploration d action

/-- What a parameter reports: `is_constant(value=0.0)`, `value()`, `final_value()`. -/
structure Amount where
  constantZero : Bool
  value : Rat
  final : Rat

inductive Exploration where
  | all (p : Amount)
  | perAction (ps : List (String × Amount))

/-- The amount of exploration of an action, lines 1156-1190: `none` is an exception, `some none` no exploration. Line 1183 takes
`value()` of the dictionary rather than of the parameter, which is a module and not a number, so that the comparison fails. -/
def amount (independent : Bool) (name : String) : Exploration → Option (Option Rat)
  | .all p =>
    if !independent then (if p.constantZero then some none else some (some p.value))
    else if p.final ≠ 0 then some (some p.final) else some none
  | .perAction ps => match ps.lookup name with
    | none => some none
    | some p =>
      if !independent && !p.constantZero then none
      else if independent && p.final ≠ 0 then some (some p.final)
      else some none

/-- Exploration part of `core_act` for one action. -/
def actExplore (rnd : Rat → Rat) (masking : Bool) (spec : Spec) (mask : List (List Bool)) (independent deterministic : Bool) (name : String)
    (e : Exploration) (d : Draws) (action : Tensor) : Option Tensor :=
  match amount independent name e with
  | none => none
  | some none => some action
  | some (some x) => explore rnd masking spec mask deterministic x d action

/-- `RandomModel.core_act`, random.py 46-94; `num_values` comes with bounds 0 and `num_values - 1` (utils/tensor_spec.py 751-754). -/
def randomAction (rnd : Rat → Rat) (masking : Bool) (mask : List (List Bool)) (d : Draws) : Spec → Option Tensor
  | .bool => some (.bools (d.uniform.map (· < 1/2)))
  | .choice n =>
    if masking then (maskedRandom rnd n mask d.uniform).map fun r => .ints (r.map Int.ofNat)
    else (uniformInt 0 ((n : Int) - 1) d.uniform).map .ints                -- lines 76-82
  | .int lo hi => match lo, hi with
    | some lo, some hi => (uniformInt lo hi d.uniform).map .ints           -- lines 76-82
    | _, _ => none                                                         -- lines 84-94
  | .float lo hi => match lo, hi with
    | some lo, some hi => some (.floats (uniformFloat lo hi d.uniform))
    | none, none => some (.floats d.normal)                                -- lines 92-94
    | _, _ => none                                                         -- lines 84-90

end Verif.Explore
