import Verif.Cart.Model

/-!
# Specification for the cart-pole environment

The equations of motion, what a state within bounds is, and what happens to one instance which is executed alone.
-/

namespace Verif.Cart

variable {K : Type} [Field K] [LinearOrder K]

/-- The facts about sine, cosine and π which are used. -/
structure Trig.Laws (t : Trig K) : Prop where
  cos_sq : ∀ x, t.cos x * t.cos x ≤ 1
  sin_zero : t.sin 0 = 0
  cos_zero : t.cos 0 = 1
  pi_pos : 0 < t.pi

/-- The equations of motion of a cart and a uniform pole of half length `poleLength`, without friction: the forces along the track, and the
torques about the hinge. `a` and `b` are the accelerations of the location and of the angle. -/
def Motion (t : Trig K) (gravity : K) (p : Physics K) (s : State K) (force a b : K) : Prop :=
  (p.cartMass + p.poleMass) * a + p.poleMass * p.poleLength * (b * t.cos s.angle - s.angleVel ^ 2 * t.sin s.angle) = force ∧
    4 / 3 * p.poleLength * b + a * t.cos s.angle = gravity * t.sin s.angle

/-- A step of time with constant velocities and accelerations which satisfy the equations of motion. -/
def MovesTo (t : Trig K) (gravity timedelta : K) (p : Physics K) (force : K) (s s' : State K) : Prop :=
  ∃ a b, Motion t gravity p s force a b ∧ s'.loc = s.loc + timedelta * s.vel ∧ s'.vel = s.vel + timedelta * a ∧
    s'.angle = s.angle + timedelta * s.angleVel ∧ s'.angleVel = s.angleVel + timedelta * b

def Physics.Pos (p : Physics K) : Prop := 0 < p.poleMass ∧ 0 < p.poleLength ∧ 0 < p.cartMass ∧ 0 < p.force

/-- The random numbers of one draw are between 0 and 1. -/
def unit (x : K) : Prop := 0 ≤ x ∧ x ≤ 1
def Physics.Unit (u : Physics K) : Prop := unit u.poleMass ∧ unit u.poleLength ∧ unit u.cartMass ∧ unit u.force
def State.Unit (u : State K) : Prop := unit u.loc ∧ unit u.vel ∧ unit u.angle ∧ unit u.angleVel

/-- The numbers which an argument stands for. -/
def Arg.has : Arg K → K → Prop
  | .value x, y => y = x
  | .range a b, y => a ≤ y ∧ y ≤ b

/-- A positive number, or a proper range of positive numbers. -/
def Arg.Positive : Arg K → Prop
  | .value x => 0 < x
  | .range a b => 0 < a ∧ a < b

/-- The physics parameters lie in the ranges given as arguments. -/
def Args.Allows (a : Args K) (p : Physics K) : Prop :=
  a.poleMass.has p.poleMass ∧ a.poleLength.has p.poleLength ∧ a.cartMass.has p.cartMass ∧ a.force.has p.force

/-- Arguments which make sense: positive physics parameters and timestep; continuous actions include the action without effect. -/
def Args.Sensible (a : Args K) : Prop :=
  a.poleMass.Positive ∧ a.poleLength.Positive ∧ a.cartMass.Positive ∧ a.force.Positive ∧ 0 < a.gravity ∧ 0 < a.timedelta ∧
    (a.continuous = true → a.noop = true)

/-- The ends of a range. -/
def Arg.lo : Arg K → K
  | .value x => x
  | .range a _ => a
def Arg.hi : Arg K → K
  | .value x => x
  | .range _ b => b

/-- The acceleration of the angle of an upright pole at rest: `force` is the force on the cart, `total` the sum of the masses. -/
def uprightAcc (force total length mass : K) : K := force / (length * (4 / 3 * total - mass))

/-- The further conditions of the constructor: the pole must not be too heavy. -/
def Args.Light (a : Args K) : Prop :=
  a.poleMass.hi < 4 / 3 * (a.cartMass.lo + a.poleMass.lo) ∧
    a.poleMass.lo * a.poleLength.lo * uprightAcc (a.force.lo * a.gravity) (a.cartMass.hi + a.poleMass.hi) a.poleLength.hi a.poleMass.lo <
      a.force.hi * a.gravity

/-- A number within a bound, which may be infinite. -/
def Within (x : K) : Option K → Prop
  | none => True
  | some b => |x| ≤ b

/-- All four numbers are within their bounds. -/
def Inside (b : Bounds K) (s : State K) : Prop :=
  Within s.loc b.loc ∧ |s.vel| ≤ b.vel ∧ |s.angle| ≤ b.angle ∧ |s.angleVel| ≤ b.angleVel

/-- What the agent gets is within the announced range. -/
def InRange : List (Option K) → List K → Prop
  | [], [] => True
  | m :: ms, x :: xs => Within x m ∧ InRange ms xs
  | _, _ => False

/-- Upright and at rest. -/
def State.rest : State K := { loc := 0, vel := 0, angle := 0, angleVel := 0 }

/-- One instance which is executed alone. -/
def solo (p : Physics K) (s : State K) : Env K := { parallel := false, indices := [0], physics := p, states := [s] }

/-- The direction of a discrete action: to the left, to the right, none. -/
def direction : Nat → K
  | 0 => -1
  | 1 => 1
  | _ => 0

/-- How the actions are chosen: one for each instance. -/
inductive Choice (K : Type) where
  | floats (f : Nat → K)
  | ints (f : Nat → Nat)

/-- The actions for the given instances. -/
def Choice.actions : Choice K → List Nat → Actions K
  | .floats f, is => .floats (is.map f)
  | .ints f, is => .ints (is.map f)

/-- The kind of actions fits the environment. -/
def Choice.ok (c : Config K) : Choice K → Prop
  | .floats _ => True
  | .ints _ => c.continuous = false

/-- What is left of an instance which is executed alone, after a step: nothing if its episode ends. -/
def continued : Except Err (Env K × Result K) → Option (Env K)
  | .ok (e, r) => if r.terminal = [false] then some e else none
  | .error _ => none

/-- Instance `k` alone: reset with the same random numbers, then executed with the actions chosen for it, until its episode ends. -/
def alone (t : Trig K) (c : Config K) (u : Physics K) (us : List (State K)) (choice : Nat → Choice K) (k : Nat) : Nat → Option (Env K)
  | 0 => us[k]?.map fun x => reset c false u [x]
  | n + 1 =>
    match alone t c u us choice k n with
    | none => none
    | some e => continued (execute t c e ((choice n).actions [k]))

/-- All instances in parallel. -/
def together (t : Trig K) (c : Config K) (u : Physics K) (us : List (State K)) (choice : Nat → Choice K) : Nat → Except Err (Env K)
  | 0 => .ok (reset c true u us)
  | n + 1 =>
    match together t c u us choice n with
    | .error e => .error e
    | .ok e =>
      match execute t c e ((choice n).actions e.indices) with
      | .error err => .error err
      | .ok (e', _) => .ok e'

/-- Instances whose episode runs after `n` steps. -/
def running (t : Trig K) (c : Config K) (u : Physics K) (us : List (State K)) (choice : Nat → Choice K) (n : Nat) : List Nat :=
  (List.range us.length).filter fun k => (alone t c u us choice k n).isSome

end Verif.Cart
