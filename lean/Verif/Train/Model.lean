import Mathlib.Algebra.Ring.Defs
import Mathlib.Algebra.BigOperators.Group.List.Basic

/-!
# Model of the training steps and losses of an update

Models `tensorforce/core/models/tensorforce.py`, lines 254-290, 451-470, 2281-2314, 2316-2330, 2419-2497, 2530-2578 (which variables an update
optimises, in which order, and with which loss), 2820-2962 (the losses), and `tensorforce/core/module.py`, lines 221-229 and 329-363 (L2
regularization).

Simplifications: numbers are elements of a ring; the losses per instance and the entropy, already averaged over the batch, are given numbers
for the time of the step; variables are numbered, their elements given; a module has no submodule twice; all exceptions are one outcome,
`none`; summaries, tracking, KL divergences and the arguments of the losses are left out. The main optimizer evaluates the loss.
-/

namespace Verif.Train

variable {K : Type} [CommRing K] [DecidableEq K]

/-- A parameter: whether it is constant, and its present value. -/
structure Param (K : Type) where
  constant : Bool
  value : K

/-- A module with its argument `l2_regularization`, whether it is trainable as a submodule, the trainable variables which are attributes of the
module, those within Keras objects which are attributes of the module, the sum of the losses of these objects, and the submodules. -/
inductive Tree (K : Type) where
  | node (l2 : Option (Param K)) (trainable : Bool) (own keras : List Nat) (losses : K) (subs : List (Tree K))

/-- Property `is_trainable`. -/
def Tree.trainable : Tree K → Bool
  | .node _ trainable _ _ _ _ => trainable

/-- `Parameter.is_constant(value=0.0)`. -/
def Param.isZero (p : Param K) : Bool := p.constant && p.value == 0

/-- `module.py:350`: sum of the squares of the elements of a variable. -/
def square (env : Nat → List K) (v : Nat) : K := ((env v).map fun x => x * x).sum

mutual

/-- `Module.regularize`, `module.py:329-363`; `outer` is the parameter of the nearest parent which has one (lines 333-335). The last summand is
added by `layers/rnn.py:149-150`, `layers/input_rnn.py:132-133`, `layers/keras.py:69-70` and `networks/keras.py:99-100`. -/
def regularize (env : Nat → List K) (outer : Param K) : Tree K → K
  | .node l2 _ own _ losses subs =>
    let p := l2.getD outer
    let loss :=
      if own.isEmpty || p.isZero then 0
      else if p.value = 0 then 0
      else p.value * (own.map (square env)).sum
    loss + regularizeAll env p subs + losses

def regularizeAll (env : Nat → List K) (outer : Param K) : List (Tree K) → K
  | [] => 0
  | m :: ms => (if m.trainable then regularize env outer m else 0) + regularizeAll env outer ms

end

mutual

/-- `tf.Module.trainable_variables`. -/
def vars : Tree K → List Nat
  | .node _ _ own keras _ subs => own ++ keras ++ varsAll subs

def varsAll : List (Tree K) → List Nat
  | [] => []
  | m :: ms => vars m ++ varsAll ms

end

/-- `module.is_trainable = is_trainable`, `module.py:513`. -/
def Tree.setTrainable (b : Bool) : Tree K → Tree K
  | .node l2 _ own keras losses subs => .node l2 b own keras losses subs

/-- Argument `baseline_optimizer`: none, a number, a parameter which is no number, or an optimizer, with whether it evaluates its loss, which a
synchronization does not. -/
inductive Opt (K : Type) where
  | none
  | weight (w : K)
  | parameter
  | optimizer (evaluates : Bool)
deriving DecidableEq

/-- Argument `reward_estimation[estimate_advantage]`; true has the meaning of late. -/
inductive Adv where
  | off
  | early
  | late
deriving DecidableEq, Repr

/-- The arguments of a model. `others` are the submodules except policy and baseline. -/
structure Config (K : Type) where
  policy : Tree K
  baseline : Option (Tree K)
  baselineObjective : Bool
  baselineOptimizer : Opt K
  advantage : Option Adv
  others : List (Tree K)
  l2 : Param K
  entropy : Param K

/-- Lines 275-281. -/
def Config.inLoss (c : Config K) : Bool := c.baseline.isSome && !c.baselineObjective && decide (c.baselineOptimizer = .none)

/-- Lines 162 and 277-278. -/
def Config.adv (c : Config K) : Adv :=
  match c.advantage with
  | some a => a
  | none => if c.inLoss then .late else .off

/-- Lines 283-284. -/
def Config.opt (c : Config K) : Opt K :=
  if c.baselineOptimizer = .none ∧ c.baselineObjective = true then .weight 1 else c.baselineOptimizer

/-- Lines 286-289. -/
def Config.baselineTrainable (c : Config K) : Bool :=
  match c.opt with
  | .none | .weight _ => true
  | _ => false

/-- The model as a module. -/
def Config.root (c : Config K) : Tree K :=
  .node (some c.l2) true [] [] 0
    (c.policy.setTrainable true :: (c.baseline.map (·.setTrainable c.baselineTrainable)).toList ++ c.others)

/-- Lines 429-440. -/
def Config.base (c : Config K) : Tree K := c.baseline.getD c.policy

/-- Numbers at the time of a step: the elements of the variables, the mean losses of the objectives, and the mean entropy of the policy. -/
structure Data (K : Type) where
  env : Nat → List K
  objective : K
  baselineObjective : K
  entropy : K

/-- `TensorforceModel.regularize`, lines 2899-2924. -/
def Config.regularization (c : Config K) (d : Data K) : K :=
  regularize d.env c.l2 c.root +
    (if c.entropy.isZero then 0
     else if c.entropy.value = 0 then 0
     else -c.entropy.value * d.entropy)

/-- `baseline_loss`, lines 2926-2962; line 2929 raises without a baseline objective. -/
def Config.baselineLoss (c : Config K) : Option (Data K → K) :=
  if c.baselineObjective then
    some fun d => d.baselineObjective +
      match c.baseline with
      | none => 0
      | some b => regularize d.env c.l2 b
  else none

/-- `loss`, lines 2820-2897. A number as weight is a constant parameter. -/
def Config.loss (c : Config K) : Option (Data K → K) :=
  match c.opt with
  | .weight w =>
    if w = 0 then some fun d => d.objective + c.regularization d
    else
      match c.baselineLoss with
      | none => none
      | some f => some fun d => d.objective + c.regularization d + w * f d
  | _ => some fun d => d.objective + c.regularization d

/-- What happens in an update. -/
inductive Step (K : Type) where
  /-- The main optimizer optimises these variables with this loss. -/
  | main (vs : List Nat) (loss : Data K → K)
  /-- The baseline optimizer optimises these variables, with this loss if it evaluates one. -/
  | base (vs : List Nat) (loss : Option (Data K → K))
  /-- The prediction of the baseline is subtracted from the return. -/
  | advantage

/-- Lines 2431-2432 and 2490-2492. -/
def Config.mainVars (c : Config K) : List Nat :=
  if c.adv ≠ .off ∧ c.inLoss then vars c.root else vars c.policy

/-- Lines 2281-2314 and 2543-2578. -/
def Config.baseStep (c : Config K) (evaluates : Bool) : Option (Step K) :=
  if evaluates then
    match c.baselineLoss with
    | none => none
    | some f => some (.base (vars c.base) (some f))
  else some (.base (vars c.base) none)

/-- Lines 2316-2330. -/
def Config.advStep (c : Config K) : List (Step K) := if c.adv ≠ .off ∧ c.inLoss = false then [.advantage] else []

/-- The steps of an update; `none` if it or the creation of the model raises. A parameter which is no number is taken for an optimizer (lines
456 and 463-485), of which there is none with such a specification. -/
def Config.update (c : Config K) : Option (List (Step K)) :=
  match c.loss with
  | none => none
  | some f =>
    match c.opt with
    | .parameter => none
    | .optimizer evaluates =>
      match c.baseStep evaluates with
      | none => none
      | some s => if c.adv = .early then some (c.advStep ++ [.main c.mainVars f, s]) else some (s :: c.advStep ++ [.main c.mainVars f])
    | _ => some (c.advStep ++ [.main c.mainVars f])

end Verif.Train
