import Verif.Objective.Model

/-!
# Policy, baseline and objectives of a model

Model of the part of `TensorforceModel.__init__` which chooses the types of policy and baseline from
the functions which objectives and reward estimation need, and of the calls of these functions.

Simplifications.
* Policy and baseline are configured without `type`, so that the default type is used; the values of
  `huber_loss` and of the other parameters of objectives do not matter here.
* Of the reward estimation only the entries which influence the choice are modelled; processing
  layers, memory and optimizer arguments are not.
* Calls are listed, without order and multiplicity.  Listed are the functions of policies which
  `act`, `experience` and `update` call for objectives and predictions, not those for summaries, for
  entropy regularization (which has its own check, `tensorforce.py:398-403`), and for the divergence
  which some optimizers need.
-/

namespace Verif.Objective

variable {K : Type} [Field K] [LinearOrder K] [IsStrictOrderedRing K]

/-- Types of actions. -/
inductive ActionType where
  | bool
  | int
  | float
  deriving DecidableEq, Repr

/-- Entries of `required_fns`. -/
inductive Requirement where
  | policy
  | stochastic
  | stateValue
  | actionValue
  deriving DecidableEq, Repr

/-- `policy_modules`, `policies/__init__.py`. -/
inductive PolicyType where
  | stateValue
  | actionValue
  | valuePolicy
  | distributions
  deriving DecidableEq, Repr

/-- Functions of policies. -/
inductive Method where
  | act
  | logProbability
  | logProbabilities
  | stateValue
  | stateValues
  | actionValue
  | actionValues
  | nextInternals
  deriving DecidableEq, Repr

/-- The functions which can be called, from the classes in `tensorforce/core/policies`.  The one of
`ParametrizedActionValue.next_internals` calls the function of the base class without the required
argument `actions` (`parametrized_action_value.py:86-89`, `parametrized_policy.py:78`). -/
def PolicyType.has : PolicyType → Method → Bool
  | .stateValue, .stateValue => true
  | .stateValue, .nextInternals => true
  | .stateValue, _ => false
  | .actionValue, .actionValue => true
  | .actionValue, _ => false
  | .valuePolicy, .logProbability => false
  | .valuePolicy, .logProbabilities => false
  | .valuePolicy, _ => true
  | .distributions, _ => true

/-- `required_policy_fns`, `value.py:65-69`, `policy_gradient.py:67-68`,
`deterministic_policy_gradient.py:51-52`, `plus.py:71-72`. -/
def Objective.requiredPolicy : Objective K → List Requirement
  | .leaf (.value .state _ _) => [.stateValue]
  | .leaf (.value .action _ _) => [.actionValue]
  | .leaf (.policyGradient _ _ _) => [.stochastic]
  | .leaf .detPolicyGradient => [.policy]
  | .plus a b => a.requiredPolicy ++ b.requiredPolicy

/-- `required_baseline_fns`, `objective.py:50-51`, `deterministic_policy_gradient.py:54-55`,
`plus.py:74-75`. -/
def Objective.requiredBaseline : Objective K → List Requirement
  | .leaf .detPolicyGradient => [.actionValue]
  | .leaf _ => []
  | .plus a b => a.requiredBaseline ++ b.requiredBaseline

/-- Argument `baseline_optimizer`. -/
inductive BaselineOptimizer (K : Type) where
  | none
  | weight (w : K)
  | optimizer
  deriving DecidableEq, Repr

/-- Values of `predict_horizon_values` and `estimate_advantage`. -/
inductive When where
  | no
  | early
  | late
  deriving DecidableEq, Repr

/-- Arguments of the model.  `none` for the two entries of the reward estimation means that they are
not given; `recurrent` says that the network of the baseline has internal states. -/
structure Config (K : Type) where
  actions : List ActionType
  objective : Objective K
  baseline : Bool
  recurrent : Bool
  baselineObjective : Option (Objective K)
  baselineOptimizer : BaselineOptimizer K
  episodeHorizon : Bool
  predictHorizon : Option When
  estimateAdvantage : Option When
  predictActionValues : Bool

/-- Errors of the constructor. -/
inductive SetupError where
  | lateEpisode
  | floatActions
  | baselineFunctions
  | negativeWeight
  deriving DecidableEq, Repr

/-- `tensorforce.py:162-185` and `271-273`. -/
def Config.predicts (c : Config K) : When :=
  match c.predictHorizon with
  | some w => w
  | none =>
    if !c.baseline && c.baselineObjective.isNone then .no
    else if c.episodeHorizon then .early else .late

/-- `tensorforce.py:162` and `275-279`. -/
def Config.advantage (c : Config K) : When :=
  match c.estimateAdvantage with
  | some w => w
  | none =>
    if c.baseline && c.baselineObjective.isNone && c.baselineOptimizer = .none then .late
    else .no

/-- `tensorforce.py:283-284`. -/
def Config.optimizer (c : Config K) : BaselineOptimizer K :=
  if c.baselineOptimizer = .none && c.baselineObjective.isSome then .weight 1
  else c.baselineOptimizer

/-- Choice of the default type, `tensorforce.py:373-387` and `416-429`; the second component says
whether a warning is logged. -/
def defaultType (actions : List ActionType) (required : List Requirement) : PolicyType × Bool :=
  if required.all (· = .stateValue) then (.stateValue, false)
  else if required.all (· = .actionValue) && actions.all (· = .float) then (.actionValue, false)
  else if required.all (· ≠ .stochastic) && actions.all (· ≠ .float) then (.valuePolicy, false)
  else if required.all (fun r => r = .policy || r = .stochastic) then (.distributions, false)
  else (.distributions, true)

/-- Functions needed for predictions, `tensorforce.py:364-368` and `407-411`; `none` if there are no
predictions. -/
def Config.predictionFns (c : Config K) : Option (List Requirement) :=
  if c.predicts ≠ .no ∨ c.advantage ≠ .no then
    some (if c.predictActionValues then [.actionValue] else [.stateValue])
  else
    none

/-- `required_fns` of the policy, `tensorforce.py:361-371`. -/
def Config.policyFns (c : Config K) : List Requirement :=
  let required := .policy :: c.objective.requiredPolicy
  if c.baseline then required
  else
    required ++ c.predictionFns.getD [] ++ c.objective.requiredBaseline ++
      (c.baselineObjective.elim [] Objective.requiredPolicy)

/-- `required_fns` of a separate baseline, `tensorforce.py:406-414`.  Without predictions the set of
the policy is taken over. -/
def Config.baselineFns (c : Config K) : List Requirement :=
  c.predictionFns.getD c.policyFns ++ c.objective.requiredBaseline ++
    (c.baselineObjective.elim [] Objective.requiredPolicy)

/-- Whether an objective contains a deterministic policy gradient. -/
def Objective.hasDeterministic : Objective K → Bool
  | .leaf .detPolicyGradient => true
  | .leaf _ => false
  | .plus a b => a.hasDeterministic || b.hasDeterministic

/-- The weight of the baseline loss is not negative, `tensorforce.py:457-461`. -/
def Config.weightOk (c : Config K) : Bool :=
  match c.optimizer with
  | .weight w => decide (0 ≤ w)
  | _ => true

/-- The types which the constructor chooses. -/
structure Setup where
  policy : PolicyType
  baseline : Option PolicyType
  warning : Bool
  deriving DecidableEq, Repr

/-- `TensorforceModel.__init__`, `tensorforce.py:161-185` and `254-463`, as far as modelled. -/
def setup (c : Config K) : Except SetupError Setup :=
  if c.episodeHorizon && c.predictHorizon = some .late then .error .lateEpisode
  else if (c.objective.hasDeterministic ||
      c.baselineObjective.elim false Objective.hasDeterministic) &&
      !c.actions.all (· = .float) then .error .floatActions
  else if !(c.baselineObjective.elim [] Objective.requiredBaseline).isEmpty then
    .error .baselineFunctions
  else
    let policy := defaultType c.actions c.policyFns
    if !c.weightOk then .error .negativeWeight
    else if c.baseline then
      let baseline := defaultType c.actions c.baselineFns
      .ok ⟨policy.1, some baseline.1, policy.2 || baseline.2⟩
    else
      .ok ⟨policy.1, none, policy.2⟩

/-! ### Calls -/

/-- A call of a function of the policy, of the baseline, or of `None`. -/
inductive Call where
  | policy (m : Method)
  | baseline (m : Method)
  | nothing
  deriving DecidableEq, Repr

/-- Calls of `reference` and `loss` of an objective; `own` is the call of a function of the argument
`policy`, `other` of the argument `baseline`.  `value.py:120-142`, `policy_gradient.py:79-111`,
`deterministic_policy_gradient.py:80-89`, `plus.py:94-137`. -/
def Objective.calls (own other : Method → Call) : Objective K → List Call
  | .leaf (.value .state _ e) => [own (if e then .stateValue else .stateValues)]
  | .leaf (.value .action _ e) => [own (if e then .actionValue else .actionValues)]
  | .leaf (.policyGradient _ _ e) => [own (if e then .logProbability else .logProbabilities)]
  | .leaf .detPolicyGradient => [own .act, other .actionValue]
  | .plus a b => a.calls own other ++ b.calls own other

/-- The baseline is the policy if there is no separate one, `tensorforce.py:440-441`. -/
def Config.baselineCall (c : Config K) (m : Method) : Call :=
  if c.baseline then .baseline m else .policy m

/-- Calls of predictions, `tensorforce.py:1727-1738`, `1877-1904`, `2316-2328`, `2444-2455` and
`2786-2799`. -/
def Config.predictionCalls (c : Config K) : List Call :=
  if c.predicts ≠ .no ∨ c.advantage ≠ .no then
    [c.baselineCall (if c.predictActionValues then .actionValue else .stateValue)]
  else
    []

/-- Calls of the loss of the objective, `tensorforce.py:2418-2421` and `2833-2837`; the argument
`baseline` is `None` if there is no separate one. -/
def Config.lossCalls (c : Config K) : List Call :=
  c.objective.calls .policy fun m => if c.baseline then .baseline m else .nothing

/-- Calls of the loss of the baseline, `tensorforce.py:2275-2279`, `2281-2313`, `2543-2575`,
`2859-2888` and `2924-2932`; there are none without optimizer and with the weight zero. -/
def Config.baselineLossCalls (c : Config K) : List Call :=
  let calls := match c.baselineObjective with
    | none => [.nothing]
    | some o => o.calls c.baselineCall fun _ => .nothing
  match c.optimizer with
  | .none => []
  | .weight w => if w = 0 then [] else calls
  | .optimizer => calls

/-- All calls.  `act` calls the policy (`tensorforce.py:1120`), and `next_internals` of a separate
baseline with internal states (`1131-1132`). -/
def Config.calls (c : Config K) : List Call :=
  .policy .act :: (if c.baseline && c.recurrent then [.baseline .nextInternals] else []) ++
    c.predictionCalls ++ c.lossCalls ++ c.baselineLossCalls

/-- A call succeeds if there is a receiver and its type has the function. -/
def Setup.supports (s : Setup) : Call → Bool
  | .policy m => s.policy.has m
  | .baseline m => s.baseline.elim false (·.has m)
  | .nothing => false

end Verif.Objective
