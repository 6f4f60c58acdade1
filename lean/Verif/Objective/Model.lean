import Verif.Policy.Model

/-!
# Objectives

Model of the loss functions of `tensorforce/core/objectives`: value, policy gradient, deterministic
policy gradient, and their sums.

Simplifications.
* One instance of a batch at a time: the losses of different instances do not influence each other
  (`tensorforce.py:2840` takes their mean).
* The functions of the policy and of the baseline are not called; what they return for the instance
  is given by `Instance`.
* Numbers are elements of an ordered field, as in `Verif.Policy.Model`; parameters such as
  `huber_loss` are the values which they have at the time of the call.
* Automatic differentiation is not modelled; `tf.stop_gradient` is the identity.
-/

namespace Verif.Objective

open Verif.Policy

variable {K : Type} [Field K] [LinearOrder K] [IsStrictOrderedRing K]

/-- Argument `value` of the value objective, `value.py:52-53`. -/
inductive ValueKind where
  | state
  | action
  deriving DecidableEq, Repr

/-- Objectives which do not consist of other objectives. -/
inductive Leaf (K : Type) where
  /-- `Value`, `value.py:43-63`. -/
  | value (kind : ValueKind) (huber : Option K) (earlyReduce : Bool)
  /-- `PolicyGradient`, `policy_gradient.py:45-65`. -/
  | policyGradient (importance : Bool) (clipping : Option K) (earlyReduce : Bool)
  /-- `DeterministicPolicyGradient`, `deterministic_policy_gradient.py:36-49`. -/
  | detPolicyGradient
  deriving DecidableEq, Repr

/-- Objectives, including `Plus`, `plus.py:41-60`. -/
inductive Objective (K : Type) where
  | leaf (l : Leaf K)
  | plus (first second : Objective K)
  deriving DecidableEq, Repr

/-- What the policy returns for one action of one instance.  Tensors are given by the shape of the
action and the list of their elements. -/
structure ActionData (K : Type) where
  shape : List Nat
  logProbabilities : List K
  stateValues : List K
  actionValues : List K

/-- What the policy and the baseline return for one instance, and the reward.
`deterministicValue` is the action value which the baseline gives to the deterministic action of the
policy. -/
structure Instance (K : Type) where
  actions : List (ActionData K)
  stateValue : K
  actionValue : K
  deterministicValue : K
  reward : K

/-- Errors: tensors which do not fit together, and the assertion `plus.py:120`. -/
inductive Error where
  | shape
  | assertion
  deriving DecidableEq, Repr

/-- `TensorSpec.size`. -/
def shapeSize (shape : List Nat) : Nat := shape.foldr (· * ·) 1

/-- `tf.concat(values=tuple(value.values()), axis=1)`, `value.py:129` and `142`.  The tensors are not
reshaped before, so that they have the axis 1 only if no action is a scalar.  A rank of two or more
is an error too, since the loss would not be one number per instance (`objective.py:77-81`). -/
def concatAxis1 : List (List Nat × List K) → Except Error (List K)
  | [] => .ok []
  | (shape, xs) :: rest =>
    if shape.length = 1 then
      match concatAxis1 rest with
      | .error e => .error e
      | .ok ys => .ok (xs ++ ys)
    else
      .error .shape

/-- Estimates of the value objective, `value.py:120-142`. -/
def valueEstimates (kind : ValueKind) (earlyReduce : Bool) (x : Instance K) :
    Except Error (List K) :=
  match kind with
  | .state =>
    if earlyReduce then .ok [x.stateValue]
    else concatAxis1 (x.actions.map fun a => (a.shape, a.stateValues))
  | .action =>
    if earlyReduce then .ok [x.actionValue]
    else concatAxis1 (x.actions.map fun a => (a.shape, a.actionValues))

/-- Loss of one estimate, `value.py:149-159`. -/
def valueTerm (huber : Option K) (difference : K) : K :=
  match huber with
  | none => 1 / 2 * difference ^ 2
  | some h =>
    if |difference| ≤ h then 1 / 2 * difference ^ 2
    else h * (|difference| - 1 / 2 * h)

/-- `Value.loss`, `value.py:108-164`. -/
def valueLoss (kind : ValueKind) (huber : Option K) (earlyReduce : Bool) (x : Instance K) :
    Except Error K :=
  match valueEstimates kind earlyReduce x with
  | .error e => .error e
  | .ok vs => .ok (vs.map fun v => valueTerm huber (v - x.reward)).sum

/-- Log-probabilities of all components of all actions, reshaped and concatenated,
`policy_gradient.py:93-99` and `stochastic_policy.py:212-216`. -/
def logProbabilities (x : Instance K) : List K := (x.actions.map (·.logProbabilities)).flatten

/-- `StochasticPolicy.log_probability`, `stochastic_policy.py:205-218`. -/
def logProbability (x : Instance K) : K := (logProbabilities x).sum

/-- `PolicyGradient.reference`, `policy_gradient.py:79-101`. -/
def gradientReference (earlyReduce : Bool) (x : Instance K) : List K :=
  if earlyReduce then [logProbability x] else logProbabilities x

/-- Maximized value, `policy_gradient.py:115-124`. -/
def gradientTarget (f : Fns K) (importance : Bool) (logProb reference : K) : K :=
  if importance then f.exp (clip (logProb - reference) (f.log eps) (-f.log eps)) else logProb

/-- Loss of one log-probability, `policy_gradient.py:115-147`. -/
def gradientTerm (f : Fns K) (importance : Bool) (clipping : Option K)
    (logProb reference reward : K) : K :=
  let target := gradientTarget f importance logProb reference
  match clipping with
  | none => -(target * reward)
  | some c =>
    let lo := if importance then 1 / (1 + c) else reference - f.log (1 + c)
    let hi := if importance then 1 + c else reference + f.log (1 + c);
    -(min (target * reward) (clip target lo hi * reward))

/-- `PolicyGradient.loss`, `policy_gradient.py:103-152`. -/
def gradientLoss (f : Fns K) (importance : Bool) (clipping : Option K) (earlyReduce : Bool)
    (x : Instance K) (reference : List K) : Except Error K :=
  let logs := gradientReference earlyReduce x
  if reference.length = logs.length then
    .ok (List.zipWith (fun l r => gradientTerm f importance clipping l r x.reward) logs
      reference).sum
  else
    .error .shape

/-- `reference_spec().size` of the objectives, `value.py:71-73`, `policy_gradient.py:70-77`,
`deterministic_policy_gradient.py:57-59`; `shapes` are the shapes of the actions. -/
def Leaf.size (shapes : List (List Nat)) : Leaf K → Nat
  | .value _ _ _ => 1
  | .policyGradient _ _ earlyReduce => if earlyReduce then 1 else (shapes.map shapeSize).sum
  | .detPolicyGradient => 1

/-- `reference` of the objectives, `value.py:106`, `policy_gradient.py:79-101`,
`deterministic_policy_gradient.py:69`. -/
def Leaf.reference (l : Leaf K) (x : Instance K) : List K :=
  match l with
  | .value _ _ _ => [0]
  | .policyGradient _ _ earlyReduce => gradientReference earlyReduce x
  | .detPolicyGradient => [0]

/-- `loss` of the objectives, `value.py:108-164`, `policy_gradient.py:103-152`,
`deterministic_policy_gradient.py:71-91`. -/
def Leaf.loss (f : Fns K) (l : Leaf K) (x : Instance K) (reference : List K) : Except Error K :=
  match l with
  | .value kind huber earlyReduce => valueLoss kind huber earlyReduce x
  | .policyGradient importance clipping earlyReduce =>
    gradientLoss f importance clipping earlyReduce x reference
  | .detPolicyGradient => .ok (-x.deterministicValue)

/-- `Plus.reference_spec().size`, `plus.py:77-82`. -/
def Objective.size (shapes : List (List Nat)) : Objective K → Nat
  | .leaf l => l.size shapes
  | .plus a b => a.size shapes + b.size shapes

/-- `Plus.reference`, `plus.py:94-111`. -/
def Objective.reference (o : Objective K) (x : Instance K) : List K :=
  match o with
  | .leaf l => l.reference x
  | .plus a b => a.reference x ++ b.reference x

/-- `Plus.loss`, `plus.py:113-137`. -/
def Objective.loss (f : Fns K) (o : Objective K) (x : Instance K) (reference : List K) :
    Except Error K :=
  match o with
  | .leaf l => l.loss f x reference
  | .plus a b =>
    let shapes := x.actions.map (·.shape)
    if reference.length = a.size shapes + b.size shapes then
      match a.loss f x (reference.take (a.size shapes)) with
      | .error e => .error e
      | .ok loss1 =>
        match b.loss f x (reference.drop (a.size shapes)) with
        | .error e => .error e
        | .ok loss2 => .ok (loss1 + loss2)
    else
      .error .assertion

end Verif.Objective
