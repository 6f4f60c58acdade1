import Verif.Objective.Model

/-!
# Terms of the properties of objectives
-/

namespace Verif.Objective

open Verif.Policy

variable {K : Type} [Field K] [LinearOrder K] [IsStrictOrderedRing K]

/-- The tensors of an instance have the shapes of the actions: the number of components is the product of
the dimensions. -/
def Instance.Shaped (x : Instance K) : Prop :=
  ∀ a ∈ x.actions, a.logProbabilities.length = a.shape.prod ∧
    a.stateValues.length = a.shape.prod ∧ a.actionValues.length = a.shape.prod

/-- Estimates which a value objective compares with the reward: the value of the instance, or the
values of all components of all actions. -/
def estimates (kind : ValueKind) (earlyReduce : Bool) (x : Instance K) : List K :=
  match kind, earlyReduce with
  | .state, true => [x.stateValue]
  | .action, true => [x.actionValue]
  | .state, false => x.actions.flatMap (·.stateValues)
  | .action, false => x.actions.flatMap (·.actionValues)

/-- Difference limited to the Huber threshold, the slope of the value loss. -/
def slope (huber : Option K) (difference : K) : K :=
  match huber with
  | none => difference
  | some h => max (-h) (min h difference)

/-- Facts about exponential function and logarithm.  They hold for the real functions
(`Verif.Objective.real_exp_laws`). -/
structure ExpLaws (f : Fns K) : Prop where
  exp_pos : ∀ x, 0 < f.exp x
  exp_mono : ∀ x y, x ≤ y → f.exp x ≤ f.exp y
  exp_neg : ∀ x, f.exp (-x) = 1 / f.exp x
  exp_log : ∀ y, 0 < y → f.exp (f.log y) = y
  log_exp : ∀ x, f.log (f.exp x) = x

/-- The probability has changed by at most the factor `1 + c`. -/
def Near (f : Fns K) (c logProb reference : K) : Prop :=
  f.exp (logProb - reference) ≤ 1 + c ∧ 1 / (1 + c) ≤ f.exp (logProb - reference)

/-- The probability has changed by at least the factor `1 + c` in the direction which the reward
asks for. -/
def Beyond (f : Fns K) (c logProb reference reward : K) : Prop :=
  (0 ≤ reward ∧ 1 + c ≤ f.exp (logProb - reference)) ∨
    (reward ≤ 0 ∧ f.exp (logProb - reference) ≤ 1 / (1 + c))

/-- The objectives of which a sum consists, from left to right. -/
def Objective.leaves : Objective K → List (Leaf K)
  | .leaf l => [l]
  | .plus a b => a.leaves ++ b.leaves

/-- Sum of the losses of objectives, each with its own reference; the first error if there is one. -/
def sumOfLosses (f : Fns K) (before now : Instance K) : List (Leaf K) → Except Error K
  | [] => .ok 0
  | l :: rest =>
    match l.loss f now (l.reference before), sumOfLosses f before now rest with
    | .error e, _ => .error e
    | _, .error e => .error e
    | .ok a, .ok b => .ok (a + b)

end Verif.Objective
