/-!
# Model of scheduled hyperparameters

Models `tensorforce/core/parameters/decaying.py`, `Decaying.min_value` (165-227), `max_value` (229-291), `final_value`
(293-327), `parameter_value` (329-411), `tensorforce/core/parameters/linear.py`, and
`tensorforce/core/parameters/piecewise_constant.py` (40-83).

Simplifications: numbers are exact rationals; the Keras schedules called by `parameter_value` are written out from their
documented formulas (trusted), with cosine, real powers, the restart index and the noise taken from a given `Oracle`; a failing
assertion is `none`; all keyword arguments are given explicitly (no defaults).
-/

namespace Verif.Param

/-- Cosine (argument in units of pi), real power, number of restarts (`floor(log(1 - c (1 - t)) / log t)`), noise by step. -/
structure Oracle where
  cos : Rat → Rat
  pow : Rat → Rat → Rat
  restarts : Rat → Rat → Nat
  noise : Nat → Rat

inductive Decay where
  | cosine (alpha : Rat)
  | cosineRestarts (tMul mMul alpha : Rat)
  | exponential (rate : Rat) (staircase : Bool)
  | inverseTime (rate : Rat) (staircase : Bool)
  | linearCosine (periods alpha beta : Rat)
  | linearCosineNoisy (periods alpha beta : Rat)
  /-- Also `linear` (decaying.py lines 149-151): power 1, no cycle. -/
  | polynomial (final power : Rat) (cycle : Bool)
  deriving DecidableEq, Repr

structure Param where
  decay : Decay
  numSteps : Nat
  initial : Rat
  increasing : Bool
  inverse : Bool
  scale : Rat
  /-- dtype 'int' (otherwise 'float'). -/
  isInt : Bool
  deriving DecidableEq, Repr

/-- `Linear`, linear.py: no increasing, inverse or scale. -/
def Param.linear (numSteps : Nat) (initial final : Rat) (isInt : Bool) : Param :=
  ⟨.polynomial final 1 false, numSteps, initial, false, false, 1, isInt⟩

/-- Python's `int(x)` and `tf.cast` to an integer type: towards zero. -/
def trunc (x : Rat) : Rat := if 0 ≤ x then (x.floor : Rat) else (x.ceil : Rat)

def toDtype (isInt : Bool) (x : Rat) : Rat := if isInt then trunc x else x

/-! ## Announced range -/

/-- decaying.py lines 166-208 (and 230-272): range of the plain decay. -/
def rawBounds (d : Decay) (x0 : Rat) : Option (Rat × Rat) :=
  match d with
  | .cosine alpha | .cosineRestarts _ _ alpha =>
    if 0 ≤ alpha ∧ alpha ≤ 1 then
      if 0 ≤ x0 then some (x0 * alpha, x0) else some (x0, x0 * alpha)
    else none
  | .exponential rate _ | .inverseTime rate _ =>
    if 0 ≤ rate ∧ rate ≤ 1 then
      if rate = 1 then some (x0, x0) else if 0 ≤ x0 then some (0, x0) else some (x0, 0)
    else none
  | .linearCosine _ alpha beta | .linearCosineNoisy _ alpha beta =>
    if 0 ≤ alpha ∧ alpha ≤ 1 ∧ 0 ≤ beta ∧ beta ≤ 1 then
      if 0 ≤ x0 then some (x0 * beta, x0 * (1 + alpha + beta)) else some (x0 * (1 + alpha + beta), x0 * beta)
    else none
  | .polynomial final power _ =>
    if power = 0 then some (x0, x0) else if final ≤ x0 then some (final, x0) else some (x0, final)

/-- Lines 210-225 and 274-289: effect of `increasing`, `inverse` and `scale`; `invOk` is the assertion for `inverse`, at least
epsilon in line 217 and positive in line 281. -/
def bounds (p : Param) (invOk : Rat → Bool) : Option (Rat × Rat) :=
  match rawBounds p.decay p.initial with
  | none => none
  | some (lo, hi) =>
    if ¬ lo ≤ hi then none
    else if p.increasing = true ∧ ¬ (0 ≤ lo ∧ hi ≤ 1) then none
    else
      let b := if p.increasing then (1 - hi, 1 - lo) else (lo, hi)
      if p.inverse = true ∧ ¬ (invOk b.1 = true ∧ b.1 ≤ b.2) then none
      else
        let b := if p.inverse then (1 / b.2, 1 / b.1) else b
        some (if p.scale = 1 then b else if 0 ≤ p.scale then (p.scale * b.1, p.scale * b.2)
              else (p.scale * b.2, p.scale * b.1))

/-- Lines 165-227. -/
def Param.minValue (p : Param) (eps : Rat) : Option Rat :=
  (bounds p fun x => decide (eps ≤ x)).map fun b => toDtype p.isInt b.1

/-- Lines 229-291. -/
def Param.maxValue (p : Param) : Option Rat :=
  (bounds p fun x => decide (0 < x)).map fun b => toDtype p.isInt b.2

/-- Lines 293-327; cosine: `self.kwargs['decay_rate']` raises, line 295. -/
def Param.finalValue (p : Param) : Option Rat :=
  let value : Option Rat :=
    match p.decay with
    | .cosine _ | .cosineRestarts _ _ _ => none
    | .exponential rate _ | .inverseTime rate _ =>
      if 0 ≤ rate ∧ rate ≤ 1 then if rate = 1 then some p.initial else some 0 else none
    | .linearCosine _ alpha beta | .linearCosineNoisy _ alpha beta =>
      if 0 ≤ alpha ∧ alpha ≤ 1 ∧ 0 ≤ beta ∧ beta ≤ 1 then some (p.initial * beta) else none
    | .polynomial final power _ => if power = 0 then some p.initial else some final
  match value with
  | none => none
  | some v =>
    if p.increasing = true ∧ ¬ (0 ≤ v ∧ v ≤ 1) then none
    else
      let v := if p.increasing then 1 - v else v
      if p.inverse = true ∧ ¬ 0 < v then none
      else
        let v := if p.inverse then 1 / v else v
        some (toDtype p.isInt (if p.scale = 1 then v else v * p.scale))

/-- parameter.py lines 77-84 (`is_constant()` without argument): the constant, no constant, or a failure (outer `none`). -/
def Param.isConstant (p : Param) (eps : Rat) : Option (Option Rat) :=
  match p.minValue eps, p.maxValue with
  | some lo, some hi =>
    if lo = hi then
      match p.finalValue with
      | some v => if v = lo then some (some v) else none
      | none => none
    else some none
  | _, _ => none

/-! ## Value at a step -/

/-- The part of the schedule that has passed, at most 1. -/
def part (d step : Nat) : Rat := (min step d : Nat) / (d : Rat)

/-- `step / decay_steps`, rounded down for a staircase. -/
def ratio (d step : Nat) (staircase : Bool) : Rat := if staircase then ((step / d : Nat) : Rat) else (step : Rat) / (d : Rat)

/-- Keras' schedules as called in lines 332-385; `d` is `num_steps + 1`. -/
def raw (o : Oracle) (dec : Decay) (x0 : Rat) (d step : Nat) : Rat :=
  match dec with
  | .cosine alpha => x0 * ((1 - alpha) * ((1 + o.cos (part d step)) / 2) + alpha)
  | .cosineRestarts tMul mMul alpha =>
    let c := (step : Rat) / (d : Rat)
    let i := if tMul = 1 then step / d else o.restarts tMul c
    let c := if tMul = 1 then c - (i : Rat) else (c - (1 - tMul ^ i) / (1 - tMul)) / tMul ^ i
    x0 * ((1 - alpha) * (mMul ^ i * ((1 + o.cos c) / 2)) + alpha)
  | .exponential rate staircase => x0 * o.pow rate (ratio d step staircase)
  | .inverseTime rate staircase => x0 / (1 + rate * ratio d step staircase)
  | .linearCosine periods alpha beta =>
    let c := part d step
    x0 * ((alpha + (1 - c)) * ((1 + o.cos (2 * periods * c)) / 2) + beta)
  | .linearCosineNoisy periods alpha beta =>
    let c := part d step
    x0 * ((alpha + (1 - c + o.noise step)) * ((1 + o.cos (2 * periods * c)) / 2) + beta)
  | .polynomial final power cycle =>
    let k := if step = 0 then 1 else (step + d - 1) / d
    let q := if cycle then (step : Rat) / ((d * k : Nat) : Rat) else part d step
    (x0 - final) * o.pow (1 - q) power + final

/-- Lines 387-411: `increasing` (with its assertions), `inverse`, `scale`, cast. -/
def post (p : Param) (eps x : Rat) : Option Rat :=
  if p.increasing = true ∧ ¬ (0 ≤ x ∧ x ≤ 1) then none
  else
    let x := if p.increasing then 1 - x else x
    let x := if p.inverse then 1 / (if 0 < x then x + eps else x - eps) else x
    some (toDtype p.isInt (if p.scale = 1 then x else x * p.scale))

/-- The assertions in lines 333, 340, 348, 355, 362, 370 and 380. -/
def valid : Decay → Bool
  | .cosine alpha | .cosineRestarts _ _ alpha => decide (0 ≤ alpha ∧ alpha ≤ 1)
  | .exponential rate _ | .inverseTime rate _ => decide (0 ≤ rate)
  | .linearCosine _ _ beta | .linearCosineNoisy _ _ beta => decide (0 ≤ beta)
  | .polynomial _ power _ => decide (0 ≤ power)

/-- `parameter_value`, lines 329-411. -/
def Param.value (p : Param) (o : Oracle) (eps : Rat) (step : Nat) : Option Rat :=
  if valid p.decay then post p eps (raw o p.decay p.initial (p.numSteps + 1) step) else none

/-! ## Piecewise constant -/

/-- piecewise_constant.py lines 56-58. -/
def pieceOk (boundaries : List Nat) (n : Nat) : Bool :=
  decide (n = boundaries.length + 1) && decide (boundaries.Pairwise (· ≤ ·)) &&
  (match boundaries with | [] => false | b :: _ => decide (0 < b))

/-- The middle pieces of Keras' `PiecewiseConstantDecay`: `low < step <= high`. -/
def middle {α : Type} (step : Nat) : List Nat → List α → Option α
  | lo :: hi :: bs, v :: vs => if lo < step ∧ step ≤ hi then some v else middle step (hi :: bs) vs
  | _, _ => none

/-- Keras' `PiecewiseConstantDecay`: first piece up to the first boundary, last piece beyond the last one. -/
def piecewise {α : Type} (boundaries : List Nat) (values : List α) (step : Nat) : Option α :=
  match boundaries with
  | [] => none
  | b :: _ =>
    if step ≤ b then values.head?
    else if boundaries.getLastD 0 < step then values.getLast?
    else middle step boundaries (values.drop 1).dropLast

end Verif.Param
