import Mathlib.Algebra.Order.Field.Basic
import Mathlib.Algebra.Order.Ring.Abs

/-!
# Model of variable noise

Models the variable noise of `TensorforceModel.core_act`, `tensorforce/core/models/tensorforce.py` 1066-1154: noise is added to the
trainable variables of the policy, the policy acts, and the noise is subtracted again.

Simplifications:
* All trainable variables are one list of numbers. Numbers are elements of an ordered field, with a rounding function after each
  operation (the identity is exact arithmetic).
* Everything between adding and subtracting, preprocessing of the states (1107-1112) and acting (1114-1138), is a function of the
  variables; it may raise (`none`).
* `tf.random.normal(stddev=s)` is `s` times a standard normal number, which is an argument.
-/

namespace Verif.Session

variable {K : Type} [Field K] [LinearOrder K] [IsStrictOrderedRing K]

/-- What the parameter `variable_noise` reports: `is_constant(value=0.0)`, `value()`, `final_value()`. -/
structure NoiseParam (K : Type) where
  constantZero : Bool
  value : K
  final : K

/-- There is code for noise in the graph, 1067-1070. -/
def noiseActive (q : NoiseParam K) (independent : Bool) (vars : List K) : Bool :=
  !vars.isEmpty && ((!independent && !q.constantZero) || (independent && decide (q.final ≠ 0)))

/-- Standard deviation, 1071-1076. -/
def noiseAmount (q : NoiseParam K) (independent : Bool) : K := if independent then q.final else q.value

/-- Noise tensors, 1078-1099: zeros if there is no noise, otherwise normal numbers. -/
def noiseTensors (rnd : K → K) (amount : K) (deterministic : Bool) (vars draws : List K) : List K :=
  if deterministic || decide (amount = 0) then vars.map fun _ => 0
  else List.zipWith (fun _ z => rnd (amount * z)) vars draws

/-- Variables while the policy acts, 1081-1093. -/
def noisyVars (rnd : K → K) (amount : K) (deterministic : Bool) (vars draws : List K) : List K :=
  if deterministic || decide (amount = 0) then vars
  else List.zipWith (fun v n => rnd (v + n)) vars (noiseTensors rnd amount deterministic vars draws)

/-- Variables after the noise has been subtracted, 1140-1154. -/
def reversedVars (rnd : K → K) (amount : K) (inner noise : List K) : List K :=
  if amount = 0 then inner else List.zipWith (fun v n => rnd (v - n)) inner noise

/-- `core_act` as far as variable noise is concerned: the result, `none` for an exception, and the variables afterwards. After an
exception the noise is not subtracted. -/
def noisyAct {β : Type} (rnd : K → K) (q : NoiseParam K) (independent deterministic : Bool) (draws : List K)
    (body : List K → Option β) (vars : List K) : Option β × List K :=
  if noiseActive q independent vars then
    let amount := noiseAmount q independent
    let noise := noiseTensors rnd amount deterministic vars draws
    let inner := noisyVars rnd amount deterministic vars draws
    match body inner with
    | none => (none, inner)
    | some b => (some b, reversedVars rnd amount inner noise)
  else (body vars, vars)

end Verif.Session
