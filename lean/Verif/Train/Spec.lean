import Verif.Train.Model
import Mathlib.Algebra.Group.Basic

/-!
# Terms of the properties of training steps and losses
-/

namespace Verif.Train

variable {K : Type} [CommRing K] [DecidableEq K]

mutual

/-- The regularized variables, each with the arguments `l2_regularization` of the modules around it, innermost first. -/
def places (path : List (Option (Param K))) : Tree K → List (List (Option (Param K)) × Nat)
  | .node l2 _ own _ _ subs => own.map (fun v => (l2 :: path, v)) ++ placesAll (l2 :: path) subs

def placesAll (path : List (Option (Param K))) : List (Tree K) → List (List (Option (Param K)) × Nat)
  | [] => []
  | m :: ms => (if m.trainable then places path m else []) ++ placesAll path ms

end

/-- The innermost value which is given. -/
def nearest (path : List (Option (Param K))) : K := ((path.filterMap id).head?.map (·.value)).getD 0

mutual

/-- Sum of the losses of the Keras objects of a module and its trainable submodules. -/
def kerasLosses : Tree K → K
  | .node _ _ _ _ losses subs => losses + kerasLossesAll subs

def kerasLossesAll : List (Tree K) → K
  | [] => 0
  | m :: ms => (if m.trainable then kerasLosses m else 0) + kerasLossesAll ms

end

/-- Sum of the squares of all regularized variables of a module of the model, weighted, and of the losses of its Keras objects. -/
def Config.penalty (c : Config K) (d : Data K) (m : Tree K) : K :=
  ((places [some c.l2] m).map fun p => nearest p.1 * ((d.env p.2).map (· ^ 2)).sum).sum + kerasLosses m

/-- The same for the trainable submodules except policy and baseline. -/
def Config.otherPenalty (c : Config K) (d : Data K) : K := ((c.others.filter (·.trainable)).map (c.penalty d)).sum

/-- A module contains a variable: directly, in a Keras object, or in a submodule. -/
inductive Contains : Tree K → Nat → Prop
  | own {l2 t own keras losses subs v} : v ∈ own → Contains (.node l2 t own keras losses subs) v
  | keras {l2 t own keras losses subs v} : v ∈ keras → Contains (.node l2 t own keras losses subs) v
  | sub {l2 t own keras losses subs v} (m : Tree K) : m ∈ subs → Contains m v → Contains (.node l2 t own keras losses subs) v

mutual

/-- All submodules are trainable, and all variables belong to modules. -/
def Plain : Tree K → Prop
  | .node _ _ _ keras _ subs => keras = [] ∧ PlainAll subs

def PlainAll : List (Tree K) → Prop
  | [] => True
  | m :: ms => m.trainable = true ∧ Plain m ∧ PlainAll ms

end

/-- A step of the main optimizer. -/
def Step.isMain : Step K → Bool
  | .main _ _ => true
  | _ => false

def Step.isBase : Step K → Bool
  | .base _ _ => true
  | _ => false

def Step.isAdvantage : Step K → Bool
  | .advantage => true
  | _ => false

/-- The variables which a step optimises. -/
def Step.vars : Step K → List Nat
  | .main vs _ => vs
  | .base vs _ => vs
  | .advantage => []

/-- The loss of a step. -/
def Step.loss? : Step K → Option (Data K → K)
  | .main _ f => some f
  | .base _ f => f
  | .advantage => none

/-- The baseline has an optimizer of its own. -/
def Config.ownOptimizer (c : Config K) : Prop := ∃ e, c.baselineOptimizer = .optimizer e

/-- The baseline has neither objective nor optimizer, so that it is trained by the advantage in the loss. -/
def Config.joint (c : Config K) : Bool :=
  match c.baseline, c.baselineObjective, c.baselineOptimizer with
  | some _, false, .none => true
  | _, _, _ => false

/-- The weight of the loss of the baseline in the main loss: as given, one if neither weight nor optimizer are given for the objective. -/
def Config.weight (c : Config K) : K :=
  match c.baselineOptimizer with
  | .none => if c.baselineObjective then 1 else 0
  | .weight w => w
  | _ => 0

/-- The loss of the baseline is part of the main loss, although the baseline is a module of its own. -/
def Config.weighted (c : Config K) : Prop :=
  c.baseline.isSome = true ∧ ((∃ w, c.baselineOptimizer = .weight w) ∨ (c.baselineOptimizer = .none ∧ c.baselineObjective = true))

/-- The objective of the baseline is needed, but not given. -/
def Config.incomplete (c : Config K) : Prop :=
  c.baselineObjective = false ∧ (c.baselineOptimizer = .optimizer true ∨ ∃ w, w ≠ 0 ∧ c.baselineOptimizer = .weight w)

end Verif.Train
