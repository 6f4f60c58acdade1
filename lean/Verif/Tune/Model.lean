import Mathlib.Algebra.Order.Field.Basic

/-!
# Model of the hyperparameter tuner

Models `TensorforceWorker` of `tune.py`: `compute` (46-149) and the ranges of `get_configspace` (152-222).

Simplifications:
* Numbers are those of an ordered field, without rounding. The budget is a natural number, and its logarithm (lines 47-49) is taken to be an integer
  exactly for the powers of the base; the master passes only such budgets.
* Running an agent is an argument: it gives the returns of the episodes. The fixed parts of the agent (networks of size 64 and depth 2, memory, optimizer
  with five iterations of line search) are left out.
* The distributions of the parameters are left out, only their ranges are modelled.
* `np.mean` of nothing is not a number, here `none`.
-/

namespace Verif.Tune

inductive Err where
  | assertion
  | key
  deriving Repr, DecidableEq

/-- The choices `'no'` and `'yes'`. -/
inductive Choice where
  | no
  | yes
  deriving Repr, DecidableEq

/-- The values of `baseline`. -/
inductive Baseline where
  | no
  | same
  | yes
  | unknown
  deriving Repr, DecidableEq

/-- Configuration; the last two are missing if there is no baseline (lines 215-220). -/
structure Config (K : Type) where
  batch : Nat
  rate : K
  multi : Nat
  horizon : Nat
  discount : K
  importance : Choice
  clipping : K
  baseline : Baseline
  entropy : K
  weight : Option K
  advantage : Option Choice
  deriving DecidableEq

/-- Specification of the agent, lines 53-116. -/
structure Agent (K : Type) where
  batch : Nat
  rate : K
  multi : Nat
  importance : Bool
  /-- `clipping_value`, if given -/
  clipping : Option K
  horizon : Nat
  discount : K
  /-- `predict_horizon_values='early'` instead of `False` -/
  predict : Bool
  advantage : Bool
  actionValues : Bool
  /-- whether there is a network for the baseline -/
  network : Bool
  /-- `baseline_optimizer` -/
  weight : Option K
  /-- whether there is a `baseline_objective` -/
  objective : Bool
  entropy : K
  deriving DecidableEq

section
variable {K : Type} [Field K] [LinearOrder K]

/-- Lines 60-70. -/
def clippingOf (c : Config K) : Option K := if 1 < c.clipping then none else some c.clipping

/-- Lines 105-108. -/
def entropyOf (c : Config K) : K := if c.entropy < 1 / 100000 then 0 else c.entropy

/-- The agent without baseline, lines 72-78. -/
def plain (c : Config K) : Agent K :=
  ⟨c.batch, c.rate, c.multi, c.importance = .yes, clippingOf c, c.horizon, c.discount, false, false, false, false, none, false, entropyOf c⟩

/-- Lines 80-94: with the network or without. -/
def withBaseline (network : Bool) (c : Config K) : Except Err (Agent K) :=
  match c.advantage with
  | none => .error .key
  | some a =>
    match c.weight with
    | none => .error .key
    | some w => .ok { plain c with predict := true, advantage := a = .yes, network := network, weight := some w, objective := true }

/-- Lines 53-116. -/
def agentOf (c : Config K) : Except Err (Agent K) :=
  match c.baseline with
  | .no => .ok (plain c)
  | .same => withBaseline false c
  | .yes => withBaseline true c
  | .unknown => .error .assertion

/-- Lines 122-134: the number of environments. -/
def parallel (num : Option Nat) (c : Config K) : Option Nat :=
  match num with
  | none => none
  | some n => some (min n c.batch)

/-- Lines 47-50: the round of the budget. -/
def roundOf (base budget : Nat) : Nat → Nat → Except Err Nat
  | 0, _ => .error .assertion
  | left + 1, k => if base ^ k = budget then .ok k else roundOf base budget left (k + 1)

/-- Lines 47-51: the number of runs. -/
def runsOf (base budget : Nat) (perRound : List Nat) : Except Err Nat :=
  match roundOf base budget perRound.length 0 with
  | .error e => .error e
  | .ok k =>
    match perRound[k]? with
    | none => .error .assertion
    | some n => .ok n

/-- Sum. -/
def total : List K → K
  | [] => 0
  | x :: l => x + total l

/-- `np.mean` -/
def mean (l : List K) : Option K := if l = [] then none else some (total l / (l.length : K))

/-- Line 142: `returns[-20:]` -/
def last20 (l : List K) : List K := l.drop (l.length - 20)

/-- Lines 141-142, for all runs. -/
def means (f : List K → List K) : List (List K) → Option (List K)
  | [] => some []
  | r :: rs =>
    match mean (f r) with
    | none => none
    | some m =>
      match means f rs with
      | none => none
      | some ms => some (m :: ms)

/-- Lines 141-147. -/
def lossOf (runs : List (List K)) : Option K :=
  match means id runs with
  | none => none
  | some averages =>
    match means last20 runs with
    | none => none
    | some finals =>
      match mean averages with
      | none => none
      | some a =>
        match mean finals with
        | none => none
        | some f => some (-(a + f))

/-- Lines 46-149: the returns of run `n` are given. -/
def compute (base budget : Nat) (perRound : List Nat) (num : Option Nat) (run : Agent K → Option Nat → Nat → List K) (c : Config K) :
    Except Err (Option K × List (List K)) :=
  match runsOf base budget perRound with
  | .error e => .error e
  | .ok n =>
    match agentOf c with
    | .error e => .error e
    | .ok a =>
      let runs := (List.range n).map (run a (parallel num c))
      .ok (lossOf runs, runs)

/-- Lower and upper bounds, lines 155-210. -/
structure Bounds (K : Type) where
  batch : Nat × Nat
  rate : K × K
  multi : Nat × Nat
  horizon : Nat × Nat
  discount : K × K
  clipping : K × K
  weight : K × K
  entropy : K × K

def bounds : Bounds K :=
  ⟨(1, 20), (1 / 100000, 1 / 10), (1, 20), (1, 100), (4 / 5, 1), (1 / 20, 13 / 10), (1 / 100, 100), (3 / 1000000, 1)⟩

end

end Verif.Tune
