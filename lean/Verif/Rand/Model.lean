import Mathlib.Algebra.Order.Field.Rat
import Mathlib.Algebra.Order.Floor.Defs
import Mathlib.Data.Rat.Floor

/-!
# Model of random hyperparameters and of the Ornstein-Uhlenbeck process

Models `tensorforce/core/parameters/random.py` (51-105), `ornstein_uhlenbeck.py` (41-78) and the checks of
`tensorforce/core/parameters/parameter.py` (36-94 and 117-143).

Simplifications:
* Numbers are exact rationals. Rounding, also that of the upper bound of the uniform distribution, is left out.
* Random numbers are arguments: a number of the unit interval, a natural number, a standard normal number.
* A parameter is a single number: for arrays all entries are drawn in the same way.
* The behaviour of `tf.random` is written out from its documentation: integers need both bounds as integers in strict order, and
  normal numbers are not available as integers.
-/

namespace Verif.Rand

inductive Err where
  /-- A failing assertion. -/
  | assertion
  /-- `TensorforceError.value` -/
  | value
  /-- An exception of TensorFlow on the arguments of `tf.random`. -/
  | draw
  /-- A failing assertion on the value drawn, `TensorSpec.tf_assert`. -/
  | bounds
  deriving Repr, DecidableEq

/-- A Python number, with its type. -/
inductive Num where
  | int (z : Int)
  | float (x : ℚ)
  deriving Repr, DecidableEq

def Num.toRat : Num → ℚ
  | .int z => z
  | .float x => x

/-- Python's `int(x)` and `tf.cast`: towards zero. -/
def trunc (x : ℚ) : ℚ := if 0 ≤ x then (⌊x⌋ : ℚ) else (⌈x⌉ : ℚ)

/-- `self.spec.py_type()(x)` -/
def toDtype (isInt : Bool) (x : ℚ) : ℚ := if isInt then trunc x else x

/-- Bounds required where the parameter is used. -/
structure Required where
  min : Option ℚ
  max : Option ℚ
  deriving Repr, DecidableEq

/-- Whether the announced bounds are in the wrong order. -/
def crossed : Option ℚ → Option ℚ → Bool
  | some a, some b => decide (b < a)
  | _, _ => false

/-- Whether a lower bound, if required, is announced and not below. -/
def lowerOk (announced required : Option ℚ) : Bool :=
  match required with
  | none => true
  | some c =>
    match announced with
    | none => false
    | some a => !decide (a < c)

/-- Whether an upper bound, if required, is announced and not above. -/
def upperOk (announced required : Option ℚ) : Bool :=
  match required with
  | none => true
  | some d =>
    match announced with
    | none => false
    | some b => !decide (d < b)

/-- `Parameter.__init__`, parameter.py lines 46-69: announced and required bounds are compared. -/
def checkBounds (min max : Option ℚ) (r : Required) : Except Err Unit :=
  if crossed min max then .error .assertion
  else if !lowerOk min r.min then .error .value
  else if !upperOk max r.max then .error .value
  else .ok ()

/-- `TensorSpec.tf_assert` on a value, parameter.py lines 129-132. -/
def checked (r : Required) (v : ℚ) : Except Err ℚ :=
  if lowerOk (some v) r.min && upperOk (some v) r.max then .ok v else .error .bounds

/-! ## Random -/

inductive Distribution where
  | normal
  | uniform
  deriving Repr, DecidableEq

/-- A random parameter; `kwargs` are the remaining arguments, by name. -/
structure Random where
  isInt : Bool
  distribution : Distribution
  kwargs : List (String × Num)
  required : Required
  deriving Repr, DecidableEq

/-- `self.kwargs.get(name)` -/
def kwarg (r : Random) (name : String) : Option Num := (r.kwargs.find? (fun e => e.1 = name)).map Prod.snd

/-- `self.kwargs.get(name, default)` as a number -/
def kwargOr (r : Random) (name : String) (default : ℚ) : ℚ :=
  match kwarg r name with
  | some x => x.toRat
  | none => default

/-- `Random.min_value`, random.py lines 65-70. -/
def minValue (r : Random) : Option ℚ :=
  match r.distribution with
  | .uniform => some (toDtype r.isInt (kwargOr r "minval" 0))
  | .normal => none

/-- `Random.max_value`, lines 72-77. -/
def maxValue (r : Random) : Option ℚ :=
  match r.distribution with
  | .uniform => some (toDtype r.isInt (kwargOr r "maxval" 1))
  | .normal => none

/-- `Random.final_value`, lines 79-89. -/
def finalValue (r : Random) : ℚ :=
  match r.distribution with
  | .normal => toDtype r.isInt (kwargOr r "mean" 0)
  | .uniform => toDtype r.isInt ((kwargOr r "maxval" 1 + kwargOr r "minval" 0) / 2)

/-- `Random.__init__`, lines 51-63. -/
def create (r : Random) : Except Err Unit := checkBounds (minValue r) (maxValue r) r.required

/-- `Parameter.is_constant()`, parameter.py lines 77-84; the assertion on the final value is an error. -/
def isConstant (r : Random) : Except Err (Option ℚ) :=
  match minValue r, maxValue r with
  | some a, some b => if a = b then (if finalValue r = a then .ok (some a) else .error .assertion) else .ok none
  | _, _ => .ok none

/-- Random numbers: in the unit interval, any natural number, standard normal. -/
structure Draw where
  unit : ℚ
  nat : Nat
  normal : ℚ
  deriving Repr, DecidableEq

/-- `tf.random.uniform` for integers: both bounds integers, in order; the upper one is excluded. -/
def drawInt (min : Num) (max : Option Num) (k : Nat) : Except Err ℚ :=
  match min, max with
  | .int a, some (.int b) => if a < b then .ok ((a + (k : Int) % (b - a) : Int) : ℚ) else .error .draw
  | _, _ => .error .draw

/-- `Random.parameter_value`, random.py lines 91-105; by default integers have lower bound 0 and floats upper bound 1. -/
def draw (r : Random) (d : Draw) : Except Err ℚ :=
  match r.distribution with
  | .normal => if r.isInt then .error .draw else .ok (kwargOr r "mean" 0 + kwargOr r "stddev" 1 * d.normal)
  | .uniform =>
    if r.isInt then drawInt ((kwarg r "minval").getD (.int 0)) (kwarg r "maxval") d.nat
    else .ok (kwargOr r "minval" 0 + (kwargOr r "maxval" 1 - kwargOr r "minval" 0) * d.unit)

/-- `Parameter.value`, parameter.py lines 120-143. -/
def value (r : Random) (d : Draw) : Except Err ℚ :=
  match draw r d with
  | .error e => .error e
  | .ok v => checked r.required v

/-! ## Ornstein-Uhlenbeck process -/

structure Process where
  isInt : Bool
  theta : ℚ
  sigma : ℚ
  mu : ℚ
  absolute : Bool
  required : Required
  deriving Repr, DecidableEq

/-- Default arguments, ornstein_uhlenbeck.py lines 41-44. -/
def Process.default (isInt : Bool) (required : Required) : Process := ⟨isInt, 3 / 20, 3 / 10, 0, false, required⟩

/-- `min_value`, lines 52-56. -/
def lowest (p : Process) : Option ℚ := if p.absolute then some 0 else none

/-- `final_value`, lines 58-59. -/
def final (p : Process) : ℚ := toDtype p.isInt p.mu

/-- `OrnsteinUhlenbeck.__init__`, lines 41-50. -/
def createProcess (p : Process) : Except Err Unit := checkBounds (lowest p) none p.required

/-- Next value of the variable, lines 69-74. -/
def next (p : Process) (x z : ℚ) : ℚ :=
  let y := x + (p.theta * (p.mu - x) + p.sigma * z)
  if p.absolute then |y| else y

/-- `Parameter.value` in a state of the process: the new state and the value. -/
def step (p : Process) (x z : ℚ) : ℚ × Except Err ℚ :=
  let y := next p x z
  (y, checked p.required (toDtype p.isInt y))

/-- State and values after several calls; the process starts at `mu` (lines 61-67). -/
def run (p : Process) : ℚ → List ℚ → ℚ × List (Except Err ℚ)
  | x, [] => (x, [])
  | x, z :: zs =>
    let s := step p x z
    let r := run p s.1 zs
    (r.1, s.2 :: r.2)

/-- From the first state. -/
def start (p : Process) (zs : List ℚ) : ℚ × List (Except Err ℚ) := run p p.mu zs

end Verif.Rand
