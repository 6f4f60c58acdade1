import Mathlib.Algebra.Order.Field.Basic

/-!
# Model of the cart-pole environment

Models `tensorforce/environments/cartpole.py` (21-203).

Numbers are elements of an arbitrary linearly ordered field `K`: the rationals to evaluate the model, the reals to read the theorems.

Simplifications:
* Rounding, overflow and `NaN` are left out, including the conversion of bounds and initial maxima to 32-bit floats (89, 118).
* Sine, cosine and the number π are a parameter `Trig`; the theorems say which facts about them they use.
* Random numbers are arguments: `np.random.uniform(low, high)` is `low + (high - low) * u` with a number `u` of the interval from 0 to 1.
* The arguments have the right type: numbers, or tuples of two numbers for the ranges (the check of the length is left out).
-/

namespace Verif.Cart

/-- Sine, cosine and π. -/
structure Trig (K : Type) where
  sin : K → K
  cos : K → K
  pi : K

/-- An argument which is a number or a range. -/
inductive Arg (K : Type) where
  | value (x : K)
  | range (a b : K)
  deriving Repr

/-- The arguments of the constructor (27-46). -/
structure Args (K : Type) where
  poleMass : Arg K
  poleLength : Arg K
  cartMass : Arg K
  force : Arg K
  gravity : K
  velocities : Bool
  location : Bool
  maxAngle : K
  maxAngleVel : K
  maxVel : K
  timedelta : K
  continuous : Bool
  noop : Bool

inductive Err where
  /-- A failed `assert` -/
  | assertion
  /-- `ZeroDivisionError` -/
  | zero
  /-- Arrays whose shapes do not fit -/
  | shape
  /-- Integers multiplied in place by a float -/
  | cast
  deriving DecidableEq, Repr

/-- The states of one instance: location and angle with their velocities. -/
structure State (K : Type) where
  loc : K
  vel : K
  angle : K
  angleVel : K
  deriving DecidableEq, Repr

/-- `self._state_bounds` (116-118). The bound of the location may be infinite (115). -/
structure Bounds (K : Type) where
  loc : Option K
  vel : K
  angle : K
  angleVel : K
  deriving DecidableEq, Repr

/-- The attributes set by the constructor. -/
structure Config (K : Type) where
  poleMass : K × K
  poleLength : K × K
  cartMass : K × K
  force : K × K
  gravity : K
  velocities : Bool
  location : Bool
  initial : State K
  timedelta : K
  continuous : Bool
  noop : Bool
  bounds : Bounds K
  deriving DecidableEq, Repr

variable {K : Type} [Field K] [LinearOrder K]

/-- The range of an argument (49-72). -/
def Arg.check : Arg K → Except Err (K × K)
  | .value x => if 0 < x then .ok (x, x) else .error .assertion
  | .range a b => if 0 < a ∧ a < b then .ok (a, b) else .error .assertion

/-- Division of Python floats. -/
def divide (x y : K) : Except Err K := if y = 0 then .error .zero else .ok (x / y)

/-- An acceleration of the angle (99-106): `force` and `gravity` are divided by the masses `total` and the length, and by the bracket which
contains the given mass of the pole. -/
def angleAcc (force gravity total length mass : K) : Except Err K :=
  match divide (force * gravity) total with
  | .error e => .error e
  | .ok x =>
    match divide x length with
    | .error e => .error e
    | .ok y =>
      match divide mass total with
      | .error e => .error e
      | .ok r => divide y (4 / 3 - r)

/-- `max_angle_acc_in_zero` (99-102). -/
def maxAngleAcc (poleMass poleLength cartMass force : K × K) (gravity : K) : Except Err K :=
  angleAcc force.2 gravity (cartMass.1 + poleMass.1) poleLength.1 poleMass.2

/-- `min_angle_acc_in_zero` (103-106). -/
def minAngleAcc (poleMass poleLength cartMass force : K × K) (gravity : K) : Except Err K :=
  angleAcc force.1 gravity (cartMass.2 + poleMass.2) poleLength.2 poleMass.1

/-- `max_loc_acc_in_zero` (107-109). -/
def maxLocAcc (poleMass poleLength cartMass force : K × K) (gravity minAcc : K) : Except Err K :=
  divide (force.2 * gravity - poleMass.1 * poleLength.1 * minAcc) (cartMass.1 + poleMass.1)

/-- The bounds of the states (97-119). -/
def bounds (t : Trig K) (poleMass poleLength cartMass force : K × K) (gravity timedelta : K) (location : Bool) : Except Err (Bounds K) :=
  match maxAngleAcc poleMass poleLength cartMass force gravity with
  | .error e => .error e
  | .ok maxAcc =>
    match minAngleAcc poleMass poleLength cartMass force gravity with
    | .error e => .error e
    | .ok minAcc =>
      match maxLocAcc poleMass poleLength cartMass force gravity minAcc with
      | .error e => .error e
      | .ok locAcc =>
        let vel := locAcc * timedelta * 10
        let angle := t.pi / 4
        let angleVel := maxAcc * timedelta * 10
        if 0 < vel ∧ 0 < angle ∧ 0 < angleVel then
          .ok { loc := if location then some vel else none, vel := vel, angle := angle, angleVel := angleVel }
        else .error .assertion

/-- `__init__` (27-119). -/
def create (t : Trig K) (a : Args K) : Except Err (Config K) :=
  match a.poleMass.check with
  | .error e => .error e
  | .ok poleMass =>
    match a.poleLength.check with
    | .error e => .error e
    | .ok poleLength =>
      match a.cartMass.check with
      | .error e => .error e
      | .ok cartMass =>
        match a.force.check with
        | .error e => .error e
        | .ok force =>
          if ¬ 0 < a.gravity then .error .assertion
          else if a.continuous ∧ ¬ a.noop then .error .assertion
          else
            match bounds t poleMass poleLength cartMass force a.gravity a.timedelta a.location with
            | .error e => .error e
            | .ok b => .ok {
                poleMass := poleMass, poleLength := poleLength, cartMass := cartMass, force := force, gravity := a.gravity,
                velocities := a.velocities, location := a.location,
                initial := { loc := 0, vel := a.maxVel, angle := a.maxAngle, angleVel := a.maxAngleVel },
                timedelta := a.timedelta, continuous := a.continuous, noop := a.noop, bounds := b }

/-- The entries of a state at the indices `self._state_indices` (77-84). -/
def select {α : Type} (velocities location : Bool) (loc vel angle angleVel : α) : List α :=
  angle :: ((if velocities then [angleVel, vel] else []) ++ if location then [loc] else [])

/-- `self._states[i, self._state_indices]`: what the agent gets of a state. -/
def Config.view (c : Config K) (s : State K) : List K := select c.velocities c.location s.loc s.vel s.angle s.angleVel

/-- `max_value` of the specification of the states (121-126), `none` if infinite; `min_value` is the negative. -/
def Config.maxValues (c : Config K) : List (Option K) :=
  select c.velocities c.location c.bounds.loc (some c.bounds.vel) (some c.bounds.angle) (some c.bounds.angleVel)

/-- `num_values` of the actions (128-134), `none` for float actions. -/
def Config.numActions (c : Config K) : Option Nat := if c.continuous then none else if c.noop then some 3 else some 2

/-- The physics parameters of an episode (147-150). -/
structure Physics (K : Type) where
  poleMass : K
  poleLength : K
  cartMass : K
  force : K
  deriving DecidableEq, Repr

/-- The attributes changed by `reset` and `execute`. -/
structure Env (K : Type) where
  parallel : Bool
  indices : List Nat
  physics : Physics K
  states : List (State K)
  deriving DecidableEq, Repr

/-- `np.random.uniform(low, high)` -/
def uniform (low high u : K) : K := low + (high - low) * u

/-- One row of the initial states (153-154). -/
def initialState (c : Config K) (u : State K) : State K :=
  { loc := uniform (-c.initial.loc) c.initial.loc u.loc, vel := uniform (-c.initial.vel) c.initial.vel u.vel,
    angle := uniform (-c.initial.angle) c.initial.angle u.angle,
    angleVel := uniform (-c.initial.angleVel) c.initial.angleVel u.angleVel }

/-- The physics parameters of an episode (147-150). -/
def drawPhysics (c : Config K) (u : Physics K) : Physics K :=
  { poleMass := uniform c.poleMass.1 c.poleMass.2 u.poleMass, poleLength := uniform c.poleLength.1 c.poleLength.2 u.poleLength,
    cartMass := uniform c.cartMass.1 c.cartMass.2 u.cartMass, force := uniform c.force.1 c.force.2 u.force }

/-- `reset` (139-159), with random numbers for the physics parameters and for each instance; one instance if `num_parallel` is not given. -/
def reset (c : Config K) (parallel : Bool) (u : Physics K) (us : List (State K)) : Env K :=
  { parallel := parallel, indices := List.range us.length, physics := drawPhysics c u, states := us.map (initialState c) }

/-- The actions of all instances: floats or integers. -/
inductive Actions (K : Type) where
  | floats (xs : List K)
  | ints (xs : List Nat)
  deriving DecidableEq, Repr

/-- The force of an action, relative to the maximum (172-175). -/
def relForce (a : Nat) : K := if a = 2 then 0 else if a = 1 then 1 else -1

/-- The force of an action which is not given as an integer. -/
def relForceOf (x : K) : K := if x = 2 then 0 else if x = 1 then 1 else -1

/-- The forces (172-176). With `action_continuous` the actions themselves are multiplied in place, which fails for integers. -/
def forces (c : Config K) (p : Physics K) : Actions K → Except Err (List K)
  | .floats xs => .ok (xs.map fun x => (if c.continuous then x else relForceOf x) * (p.force * c.gravity))
  | .ints xs => if c.continuous then .error .cast else .ok (xs.map fun a => relForce a * (p.force * c.gravity))

/-- `angle_acc` (179-185). -/
def angleAccel (t : Trig K) (gravity : K) (p : Physics K) (s : State K) (force : K) : K :=
  let total := p.cartMass + p.poleMass
  let bracket := (force + p.poleMass * p.poleLength * s.angleVel * s.angleVel * t.sin s.angle) / total
  let denom := p.poleLength * (4 / 3 - (p.poleMass * t.cos s.angle * t.cos s.angle) / total)
  (gravity * t.sin s.angle - t.cos s.angle * bracket) / denom

/-- `loc_acc` (179-186). -/
def locAccel (t : Trig K) (gravity : K) (p : Physics K) (s : State K) (force : K) : K :=
  let total := p.cartMass + p.poleMass
  let bracket := (force + p.poleMass * p.poleLength * s.angleVel * s.angleVel * t.sin s.angle) / total
  bracket - p.poleMass * p.poleLength * angleAccel t gravity p s force * t.cos s.angle / total

/-- The integration for one instance (189-190). -/
def advance (t : Trig K) (gravity timedelta : K) (p : Physics K) (s : State K) (force : K) : State K :=
  { loc := s.loc + timedelta * s.vel, vel := s.vel + timedelta * locAccel t gravity p s force,
    angle := s.angle + timedelta * s.angleVel, angleVel := s.angleVel + timedelta * angleAccel t gravity p s force }

/-- `np.abs(self._states) > self._state_bounds` for one number. -/
def beyond (x : K) : Option K → Bool
  | none => false
  | some b => decide (b < |x|)

/-- `terminal` of one instance (193). -/
def terminal (b : Bounds K) (s : State K) : Bool :=
  beyond s.loc b.loc || beyond s.vel (some b.vel) || beyond s.angle (some b.angle) || beyond s.angleVel (some b.angleVel)

/-- Broadcasting of the forces to the number of instances. -/
def broadcast (n : Nat) (xs : List K) : Except Err (List K) :=
  if xs.length = n then .ok xs
  else
    match xs with
    | [x] => .ok (List.replicate n x)
    | _ => .error .shape

/-- `x[~terminal]` -/
def keep {α : Type} : List Bool → List α → List α
  | [], _ => []
  | _, [] => []
  | d :: ds, x :: xs => if d then keep ds xs else x :: keep ds xs

/-- What `execute` returns for all instances: the indices, states, `terminal` and rewards. -/
structure Result (K : Type) where
  indices : List Nat
  states : List (List K)
  terminal : List Bool
  rewards : List K
  deriving DecidableEq, Repr

/-- The float actions which the caller holds after `execute` with parallel instances: `force *= …` works in place (173, 176). -/
def actionsAfter (c : Config K) (e : Env K) : Actions K → Actions K
  | .floats xs => if c.continuous ∧ e.parallel then .floats (xs.map fun x => x * (e.physics.force * c.gravity)) else .floats xs
  | .ints xs => .ints xs

/-- `execute` (161-203). Without parallel instances the arrays have one element, and nothing is removed. -/
def execute (t : Trig K) (c : Config K) (e : Env K) (actions : Actions K) : Except Err (Env K × Result K) :=
  match forces c e.physics actions with
  | .error err => .error err
  | .ok xs =>
  match broadcast e.states.length xs with
  | .error err => .error err
  | .ok fs =>
    let states := List.zipWith (advance t c.gravity c.timedelta e.physics) e.states fs
    let done := states.map (terminal c.bounds)
    let rewards := done.map fun _ => 1
    let e' := if e.parallel then { e with indices := keep done e.indices, states := keep done states } else { e with states := states }
    .ok (e', { indices := e'.indices, states := e'.states.map c.view, terminal := done, rewards := rewards })

end Verif.Cart
