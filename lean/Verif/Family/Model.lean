/-!
# The agent classes: arguments, saved specification and configuration

Source: `tensorforce/agents/` (`tensorforce.py`, `dqn.py`, `double_dqn.py`, `dueling_dqn.py`, `dpg.py`, `ac.py`, `a2c.py`,
`vpg.py`, `trpo.py`, `ppo.py`, `constant.py`, `random.py`, `__init__.py`, `agent.py`).

Simplifications.
* Floating point numbers are rationals.  Lists, functions and other objects are `Val.other` with a number.
* Keyword arguments are lists of pairs; positional arguments are left out.  Python rejects a keyword which is given twice, here
  the first one counts.
* `TensorforceModel` and the other models are not built here: an agent consists of its class, its attribute `spec` and the
  arguments for the model.
* JSON keeps all values which can be encoded (tuples are lists).
* `isinstance(x, int)` also holds for booleans in Python; here a boolean is no integer, except for comparisons.
-/

namespace Verif.Family

/-- Python values as they occur in arguments of agents. -/
inductive Val where
  | none
  | bool (b : Bool)
  | int (n : Int)
  | float (q : Rat)
  | str (s : String)
  | dict (items : List (String × Val))
  | other (n : Nat)
  deriving Repr

abbrev Args := List (String × Val)

/-- Exceptions. -/
inductive Err where
  /-- `TypeError`: a required argument is missing. -/
  | missing (name : String)
  /-- `TypeError`: an argument is not known or given twice. -/
  | unexpected (name : String)
  /-- `TypeError`: wrong type of a value. -/
  | type
  | key (name : String)
  | assertion
  | deprecated (name : String)
  | invalid (name : String)
  | required (name : String)
  | value (name : String)
  deriving Repr, DecidableEq

/-- `dict.get` without default. -/
def find (k : String) : Args → Option Val
  | [] => Option.none
  | (k', v) :: rest => if k' = k then some v else find k rest

/-- `dict[k] = v` -/
def put (k : String) (v : Val) : Args → Args
  | [] => [(k, v)]
  | (k', v') :: rest => if k' = k then (k, v) :: rest else (k', v') :: put k v rest

/-- `dict.pop(k, None)`, without the result. -/
def remove (k : String) : Args → Args
  | [] => []
  | (k', v) :: rest => if k' = k then remove k rest else (k', v) :: remove k rest

/-- `bool(v)`; other objects count as true. -/
def Val.truthy : Val → Bool
  | .none => false
  | .bool b => b
  | .int n => n != 0
  | .float q => q != 0
  | .str s => s != ""
  | .dict items => !items.isEmpty
  | .other _ => true

/-- `v == s` for a string `s`. -/
def Val.isStr (s : String) : Val → Bool
  | .str t => t == s
  | _ => false

def Val.isNone : Val → Bool
  | .none => true
  | _ => false

def isInfix (p : List Char) : List Char → Bool
  | [] => p.isEmpty
  | c :: cs => p.isPrefixOf (c :: cs) || isInfix p cs

/-- `k in v`: keys of dictionaries, parts of strings. -/
def Val.contains (k : String) : Val → Except Err Bool
  | .dict items => .ok (find k items).isSome
  | .str s => .ok (isInfix k.toList s.toList)
  | .other _ => .ok false
  | _ => .error .type

/-- The agent classes. -/
inductive Kind where
  | tensorforce | constant | random | dqn | doubleDqn | duelingDqn | dpg | ac | a2c | vpg | trpo | ppo
  deriving Repr, DecidableEq

/-- `agents`, `__init__.py:48-55`, without the recorder, which is no agent. -/
def registry : List (String × Kind) :=
  [("a2c", .a2c), ("ac", .ac), ("constant", .constant), ("ddpg", .dpg), ("ddqn", .doubleDqn), ("default", .tensorforce),
    ("dpg", .dpg), ("double_dqn", .doubleDqn), ("dqn", .dqn), ("dueling_dqn", .duelingDqn), ("tensorforce", .tensorforce),
    ("ppo", .ppo), ("random", .random), ("reinforce", .vpg), ("trpo", .trpo), ("vpg", .vpg)]

def req (names : List String) : List (String × Option Val) := names.map fun n => (n, Option.none)

def opt (n : String) (v : Val) : String × Option Val := (n, some v)

/-- The last arguments of all agents with a policy, e.g. `dqn.py:154-163`. -/
def commonParams (exploration : Rat) : List (String × Option Val) :=
  [opt "state_preprocessing" (.str "linear_normalization"), opt "exploration" (.float exploration),
    opt "variable_noise" (.float 0), opt "l2_regularization" (.float 0), opt "entropy_regularization" (.float 0),
    opt "parallel_interactions" (.int 1), opt "config" .none, opt "saver" .none, opt "summarizer" .none, opt "tracking" .none,
    opt "recorder" .none]

/-- `dqn.py:140-165`, `double_dqn.py:141-166`, `dueling_dqn.py:139-164`. -/
def dqnParams : List (String × Option Val) :=
  req ["states", "actions", "memory", "batch_size"] ++
  [opt "max_episode_timesteps" .none, opt "network" (.str "auto"), opt "update_frequency" (.float (1 / 4)),
    opt "start_updating" .none, opt "learning_rate" (.float (1 / 1000)), opt "huber_loss" .none, opt "horizon" (.int 1),
    opt "discount" (.float (99 / 100)), opt "reward_processing" .none, opt "return_processing" .none,
    opt "predict_terminal_values" (.bool false), opt "target_update_weight" (.float 1), opt "target_sync_frequency" (.int 1)] ++
  commonParams 0

/-- `dpg.py:142-167` -/
def dpgParams : List (String × Option Val) :=
  req ["states", "actions", "memory", "batch_size"] ++
  [opt "max_episode_timesteps" .none, opt "network" (.str "auto"), opt "use_beta_distribution" (.bool true),
    opt "update_frequency" (.float 1), opt "start_updating" .none, opt "learning_rate" (.float (1 / 1000)),
    opt "horizon" (.int 1), opt "discount" (.float (99 / 100)), opt "reward_processing" .none, opt "return_processing" .none,
    opt "predict_terminal_values" (.bool false), opt "critic" (.str "auto"), opt "critic_optimizer" (.float 1)] ++
  commonParams (1 / 10)

/-- `ac.py:139-166` -/
def acParams : List (String × Option Val) :=
  req ["states", "actions", "batch_size"] ++
  [opt "max_episode_timesteps" .none, opt "network" (.str "auto"), opt "use_beta_distribution" (.bool false),
    opt "memory" (.str "minimum"), opt "update_frequency" (.float 1), opt "learning_rate" (.float (1 / 1000)),
    opt "horizon" (.int 1), opt "discount" (.float (99 / 100)), opt "reward_processing" .none, opt "return_processing" .none,
    opt "predict_terminal_values" (.bool false), opt "critic" (.str "auto"), opt "critic_optimizer" (.float 1)] ++
  commonParams 0

/-- `a2c.py:143-171` -/
def a2cParams : List (String × Option Val) :=
  req ["states", "actions", "batch_size"] ++
  [opt "max_episode_timesteps" .none, opt "network" (.str "auto"), opt "use_beta_distribution" (.bool false),
    opt "memory" (.str "minimum"), opt "update_frequency" (.float 1), opt "learning_rate" (.float (1 / 1000)),
    opt "horizon" (.int 1), opt "discount" (.float (99 / 100)), opt "reward_processing" .none, opt "return_processing" .none,
    opt "advantage_processing" .none, opt "predict_terminal_values" (.bool false), opt "critic" (.str "auto"),
    opt "critic_optimizer" (.float 1)] ++
  commonParams 0

/-- `vpg.py:142-167` -/
def vpgParams : List (String × Option Val) :=
  req ["states", "actions", "max_episode_timesteps", "batch_size"] ++
  [opt "network" (.str "auto"), opt "use_beta_distribution" (.bool false), opt "memory" (.str "minimum"),
    opt "update_frequency" (.float 1), opt "learning_rate" (.float (1 / 1000)), opt "discount" (.float (99 / 100)),
    opt "reward_processing" .none, opt "return_processing" .none, opt "advantage_processing" .none,
    opt "predict_terminal_values" (.bool false), opt "baseline" .none, opt "baseline_optimizer" .none] ++
  commonParams 0

/-- `trpo.py:149-175` -/
def trpoParams : List (String × Option Val) :=
  req ["states", "actions", "max_episode_timesteps", "batch_size"] ++
  [opt "network" (.str "auto"), opt "use_beta_distribution" (.bool false), opt "memory" (.str "minimum"),
    opt "update_frequency" (.float 1), opt "learning_rate" (.float (1 / 100)), opt "linesearch_iterations" (.int 10),
    opt "subsampling_fraction" (.float 1), opt "discount" (.float (99 / 100)), opt "reward_processing" .none,
    opt "return_processing" .none, opt "advantage_processing" .none, opt "predict_terminal_values" (.bool false),
    opt "baseline" .none, opt "baseline_optimizer" .none] ++
  commonParams 0

/-- `ppo.py:153-178` -/
def ppoParams : List (String × Option Val) :=
  req ["states", "actions", "max_episode_timesteps", "batch_size"] ++
  [opt "network" (.str "auto"), opt "use_beta_distribution" (.bool false), opt "memory" (.str "minimum"),
    opt "update_frequency" (.float 1), opt "learning_rate" (.float (1 / 1000)), opt "multi_step" (.int 10),
    opt "subsampling_fraction" (.float (33 / 100)), opt "likelihood_ratio_clipping" (.float (1 / 4)),
    opt "discount" (.float (99 / 100)), opt "reward_processing" .none, opt "return_processing" .none,
    opt "advantage_processing" .none, opt "predict_terminal_values" (.bool false), opt "baseline" .none,
    opt "baseline_optimizer" .none] ++
  commonParams 0

/-- The signatures of the constructors: names, and defaults of optional arguments (`tensorforce.py:299-320`,
`constant.py:108-115`, `random.py:104-109`, the others above). -/
def params : Kind → List (String × Option Val)
  | .tensorforce =>
    req ["states", "actions", "update", "optimizer", "objective", "reward_estimation"] ++
    [opt "max_episode_timesteps" .none, opt "policy" (.str "auto"), opt "memory" .none, opt "baseline" .none,
      opt "baseline_optimizer" .none, opt "baseline_objective" .none] ++ commonParams 0
  | .constant =>
    req ["states", "actions"] ++
    [opt "max_episode_timesteps" .none, opt "action_values" .none, opt "config" .none, opt "recorder" .none]
  | .random =>
    req ["states", "actions"] ++ [opt "max_episode_timesteps" .none, opt "config" .none, opt "recorder" .none]
  | .dqn => dqnParams
  | .doubleDqn => dqnParams
  | .duelingDqn => dqnParams
  | .dpg => dpgParams
  | .ac => acParams
  | .a2c => a2cParams
  | .vpg => vpgParams
  | .trpo => trpoParams
  | .ppo => ppoParams

def names (k : Kind) : List String := (params k).map (·.1)

/-- The value of a parameter: as given, or the default. -/
def valueOf (ps : List (String × Option Val)) (args : Args) (n : String) : Val :=
  match ps.find? (·.1 == n) with
  | Option.none => .none
  | some p =>
    match find n args with
    | some v => v
    | Option.none => p.2.getD .none

abbrev Env := String → Val

def env (k : Kind) (args : Args) : Env := valueOf (params k) args

/-- The first required argument which is missing. -/
def missing (k : Kind) (args : Args) : Option String :=
  ((params k).find? fun p => p.2.isNone && (find p.1 args).isNone).map (·.1)

/-- `**kwargs` -/
def extra (k : Kind) (args : Args) : Args := args.filter fun a => !(names k).contains a.1

/-- Deprecated arguments in the order of the checks: `dqn.py:167-170`, `double_dqn.py:168-172`, `dueling_dqn.py:166-170`,
`dpg.py:169-176`, `ac.py:168-175`, `a2c.py:173-180`, `vpg.py:169-176`, `trpo.py:177-192`, `ppo.py:180-199`. -/
def deprecated : Kind → List String
  | .dqn | .doubleDqn | .duelingDqn => ["estimate_terminal"]
  | .dpg | .ac | .a2c => ["estimate_terminal", "critic_network"]
  | .vpg => ["estimate_terminal", "baseline_network"]
  | .trpo => ["estimate_terminal", "critic_network", "baseline_network", "critic_optimizer"]
  | .ppo => ["optimization_steps", "estimate_terminal", "critic_network", "baseline_network", "critic_optimizer"]
  | _ => []

/-- `tensorforce.py:335-359` -/
def deprecatedBase : List String := ["baseline_policy", "reward_preprocessing", "name", "buffer_observe", "device", "seed"]

/-- The key of the class in the saved specification, `spec['agent']`: `dqn.py:173`, `double_dqn.py:175`,
`dueling_dqn.py:173`, `dpg.py:179`, `ac.py:178`, `a2c.py:183`, `vpg.py:179`, `trpo.py:195`, `ppo.py:202`,
`tensorforce.py:365`, `constant.py:118`, `random.py:112`. -/
def savedAs : Kind → String
  | .tensorforce => "tensorforce"
  | .constant => "constant"
  | .random => "random"
  | .dqn => "dqn"
  | .doubleDqn => "dqn"
  | .duelingDqn => "dueling_dqn"
  | .dpg => "dpg"
  | .ac => "ac"
  | .a2c => "a2c"
  | .vpg => "vpg"
  | .trpo => "trpo"
  | .ppo => "ppo"

/-- The end of the saved specifications, e.g. `dqn.py:182-186`. -/
def savedCommon : List String :=
  ["state_preprocessing", "exploration", "variable_noise", "l2_regularization", "entropy_regularization",
    "parallel_interactions", "config", "saver", "summarizer", "tracking", "recorder"]

/-- The arguments in the saved specification, `spec`: `dqn.py:172-187`, `double_dqn.py:174-189`, `dueling_dqn.py:172-187`,
`dpg.py:178-193`, `ac.py:177-192`, `a2c.py:182-198`, `vpg.py:178-194`, `trpo.py:194-210`, `ppo.py:201-218`,
`tensorforce.py:364-385`, `constant.py:117-122`, `random.py:111-115`. -/
def savedNames : Kind → List String
  | .tensorforce =>
    ["states", "actions", "max_episode_timesteps", "policy", "memory", "update", "optimizer", "objective", "reward_estimation",
      "baseline", "baseline_optimizer", "baseline_objective", "l2_regularization", "entropy_regularization",
      "state_preprocessing", "exploration", "variable_noise", "parallel_interactions", "config", "saver", "summarizer",
      "tracking", "recorder"]
  | .constant => ["states", "actions", "max_episode_timesteps", "action_values", "config", "recorder"]
  | .random => ["states", "actions", "max_episode_timesteps", "config", "recorder"]
  | .dqn | .doubleDqn | .duelingDqn =>
    ["states", "actions", "memory", "batch_size", "max_episode_timesteps", "network", "update_frequency", "start_updating",
      "learning_rate", "huber_loss", "horizon", "discount", "return_processing", "predict_terminal_values",
      "target_update_weight", "target_sync_frequency"] ++ savedCommon
  | .dpg =>
    ["states", "actions", "memory", "batch_size", "max_episode_timesteps", "network", "use_beta_distribution",
      "update_frequency", "start_updating", "learning_rate", "horizon", "discount", "return_processing",
      "predict_terminal_values", "critic", "critic_optimizer"] ++ savedCommon
  | .ac =>
    ["states", "actions", "batch_size", "max_episode_timesteps", "network", "use_beta_distribution", "memory",
      "update_frequency", "learning_rate", "horizon", "discount", "return_processing", "predict_terminal_values", "critic",
      "critic_optimizer"] ++ savedCommon
  | .a2c =>
    ["states", "actions", "batch_size", "max_episode_timesteps", "network", "use_beta_distribution", "memory",
      "update_frequency", "learning_rate", "horizon", "discount", "return_processing", "advantage_processing",
      "predict_terminal_values", "critic", "critic_optimizer"] ++ savedCommon
  | .vpg =>
    ["states", "actions", "max_episode_timesteps", "batch_size", "network", "use_beta_distribution", "memory",
      "update_frequency", "learning_rate", "discount", "return_processing", "advantage_processing",
      "predict_terminal_values", "baseline", "baseline_optimizer"] ++ savedCommon
  | .trpo =>
    ["states", "actions", "max_episode_timesteps", "batch_size", "network", "use_beta_distribution", "memory",
      "update_frequency", "learning_rate", "discount", "return_processing", "advantage_processing",
      "predict_terminal_values", "baseline", "baseline_optimizer"] ++ savedCommon
  | .ppo =>
    ["states", "actions", "max_episode_timesteps", "batch_size", "network", "use_beta_distribution", "memory",
      "update_frequency", "learning_rate", "multi_step", "subsampling_fraction", "likelihood_ratio_clipping", "discount",
      "return_processing", "advantage_processing", "predict_terminal_values", "baseline", "baseline_optimizer"] ++ savedCommon

def pick (e : Env) (ns : List String) : Args := ns.map fun n => (n, e n)

def saved (k : Kind) (e : Env) : Args := ("agent", .str (savedAs k)) :: pick e (savedNames k)

/-- The call `super().__init__(…)` of the agents with fixed algorithm: `dqn.py:217-230`, `double_dqn.py:219-232`,
`dueling_dqn.py:215-228`, `dpg.py:221-234`, `ac.py:219-232`, `a2c.py:225-238`, `vpg.py:233-246`, `trpo.py:252-265`,
`ppo.py:263-276`. -/
def superArgs (e : Env) (policy memory update optimizer objective reward baseline bopt bobj : Val) : Args :=
  [("states", e "states"), ("actions", e "actions"), ("max_episode_timesteps", e "max_episode_timesteps"),
    ("parallel_interactions", e "parallel_interactions"), ("config", e "config"), ("recorder", e "recorder"),
    ("policy", policy), ("memory", memory), ("update", update), ("optimizer", optimizer), ("objective", objective),
    ("reward_estimation", reward), ("baseline", baseline), ("baseline_optimizer", bopt), ("baseline_objective", bobj),
    ("l2_regularization", e "l2_regularization"), ("entropy_regularization", e "entropy_regularization"),
    ("state_preprocessing", e "state_preprocessing"), ("exploration", e "exploration"),
    ("variable_noise", e "variable_noise"), ("saver", e "saver"), ("summarizer", e "summarizer"), ("tracking", e "tracking")]

/-- `dqn.py:189-215`, `double_dqn.py:191-217`, `dueling_dqn.py:189-213`, apart from the arguments which differ. -/
def dqnArgs (policy : Val) (actionValues : Bool) (e : Env) : Args :=
  superArgs e policy
    (.dict [("type", .str "replay"), ("capacity", e "memory")])
    (.dict [("unit", .str "timesteps"), ("batch_size", e "batch_size"), ("frequency", e "update_frequency"),
      ("start", e "start_updating")])
    (.dict [("type", .str "adam"), ("learning_rate", e "learning_rate")])
    (.dict [("type", .str "action_value"), ("huber_loss", e "huber_loss")])
    (.dict [("horizon", e "horizon"), ("discount", e "discount"), ("predict_horizon_values", .str "late"),
      ("estimate_advantage", .bool false), ("predict_action_values", .bool actionValues),
      ("reward_processing", e "reward_processing"), ("return_processing", e "return_processing"),
      ("predict_terminal_values", e "predict_terminal_values")])
    policy
    (.dict [("type", .str "synchronization"), ("update_weight", e "target_update_weight"),
      ("sync_frequency", e "target_sync_frequency")])
    .none

/-- `dqn.py:189-191`, `double_dqn.py:191-193` -/
def implicitPolicy (e : Env) : Val :=
  .dict [("type", .str "parametrized_value_policy"), ("network", e "network"), ("state_value_mode", .str "implicit")]

/-- `dueling_dqn.py:189` -/
def duelingPolicy (e : Env) : Val := .dict [("type", .str "parametrized_value_policy"), ("network", e "network")]

/-- `dpg.py:195-198` with temperature 0, `ac.py:194-197`, `a2c.py:200-203`, `vpg.py:196-199`, `trpo.py:212-215`,
`ppo.py:220-223` with temperature 1. -/
def distributions (temperature : Rat) (e : Env) : Val :=
  .dict [("type", .str "parametrized_distributions"), ("network", e "network"), ("temperature", .float temperature),
    ("use_beta_distribution", e "use_beta_distribution")]

/-- `ac.py:199-202`, `a2c.py:205-208`, `vpg.py:201-204`, `trpo.py:217-220`, `ppo.py:225-228`. -/
def recentMemory (e : Env) : Val :=
  if (e "memory").isStr "minimum" then .dict [("type", .str "recent")]
  else .dict [("type", .str "recent"), ("capacity", e "memory")]

/-- `dpg.py:195-219` -/
def dpgArgs (e : Env) : Args :=
  superArgs e (distributions 0 e)
    (.dict [("type", .str "replay"), ("capacity", e "memory")])
    (.dict [("unit", .str "timesteps"), ("batch_size", e "batch_size"), ("frequency", e "update_frequency"),
      ("start", e "start_updating")])
    (.dict [("type", .str "adam"), ("learning_rate", e "learning_rate")])
    (.str "deterministic_policy_gradient")
    (.dict [("horizon", e "horizon"), ("discount", e "discount"), ("predict_horizon_values", .str "late"),
      ("estimate_advantage", .bool false), ("predict_action_values", .bool true),
      ("reward_processing", e "reward_processing"), ("return_processing", e "return_processing"),
      ("predict_terminal_values", e "predict_terminal_values")])
    (.dict [("type", .str "parametrized_action_value"), ("network", e "critic")])
    (e "critic_optimizer")
    (.dict [("type", .str "action_value")])

/-- `ac.py:194-217`, `a2c.py:200-223`; the advantage processing of `a2c.py` is not passed on. -/
def criticArgs (advantage : Bool) (e : Env) : Args :=
  superArgs e (distributions 1 e) (recentMemory e)
    (.dict [("unit", .str "timesteps"), ("batch_size", e "batch_size"), ("frequency", e "update_frequency")])
    (.dict [("type", .str "adam"), ("learning_rate", e "learning_rate")])
    (.str "policy_gradient")
    (.dict [("horizon", e "horizon"), ("discount", e "discount"), ("predict_horizon_values", .str "early"),
      ("estimate_advantage", .bool advantage), ("predict_action_values", .bool false),
      ("reward_processing", e "reward_processing"), ("return_processing", e "return_processing"),
      ("predict_terminal_values", e "predict_terminal_values")])
    (.dict [("type", .str "parametrized_state_value"), ("network", e "critic")])
    (e "critic_optimizer")
    (.dict [("type", .str "state_value")])

/-- `vpg.py:206-231`, `trpo.py:222-250`, `ppo.py:230-261`, apart from optimizer and objective. -/
def gradientArgs (optimizer objective : Val) (e : Env) : Except Err Args :=
  let update := Val.dict [("unit", .str "episodes"), ("batch_size", e "batch_size"), ("frequency", e "update_frequency")]
  if (e "baseline").isNone then
    if (e "predict_terminal_values").truthy then .error .assertion
    else if !(e "baseline_optimizer").isNone then .error .assertion
    else
      .ok (superArgs e (distributions 1 e) (recentMemory e) update optimizer objective
        (.dict [("horizon", .str "episode"), ("discount", e "discount"), ("predict_horizon_values", .bool false),
          ("estimate_advantage", .bool false), ("reward_processing", e "reward_processing"),
          ("return_processing", e "return_processing")])
        .none .none .none)
  else if (e "baseline_optimizer").isNone then .error .assertion
  else
    .ok (superArgs e (distributions 1 e) (recentMemory e) update optimizer objective
      (.dict [("horizon", .str "episode"), ("discount", e "discount"), ("predict_horizon_values", .str "early"),
        ("estimate_advantage", .bool true), ("predict_action_values", .bool false),
        ("reward_processing", e "reward_processing"), ("return_processing", e "return_processing"),
        ("advantage_processing", e "advantage_processing"), ("predict_terminal_values", e "predict_terminal_values")])
      (.dict [("type", .str "parametrized_state_value"), ("network", e "baseline")])
      (e "baseline_optimizer") (.dict [("type", .str "state_value")]))

/-- `vpg.py:208` -/
def vpgOptimizer (e : Env) : Val := .dict [("type", .str "adam"), ("learning_rate", e "learning_rate")]

/-- `trpo.py:224-227` -/
def trpoOptimizer (e : Env) : Val :=
  .dict [("optimizer", .str "natural_gradient"), ("learning_rate", e "learning_rate"), ("only_positive_updates", .bool true),
    ("subsampling_fraction", e "subsampling_fraction"), ("linesearch_iterations", e "linesearch_iterations")]

/-- `ppo.py:232-235` -/
def ppoOptimizer (e : Env) : Val :=
  .dict [("optimizer", .str "adam"), ("learning_rate", e "learning_rate"), ("multi_step", e "multi_step"),
    ("subsampling_fraction", e "subsampling_fraction")]

/-- `trpo.py:228` -/
def trpoObjective : Val := .dict [("type", .str "policy_gradient"), ("importance_sampling", .bool true)]

/-- `ppo.py:236-239` -/
def ppoObjective (e : Env) : Val :=
  .dict [("type", .str "policy_gradient"), ("importance_sampling", .bool true),
    ("clipping_value", e "likelihood_ratio_clipping")]

/-- The arguments for `TensorforceAgent`, or for the model in case of constant and random agents (`constant.py:124-134`,
`random.py:117-126`). -/
def handed (k : Kind) (e : Env) : Except Err Args :=
  match k with
  | .tensorforce => .ok (pick e (names .tensorforce))
  | .constant => .ok (pick e (names .constant) ++ [("parallel_interactions", .int 1)])
  | .random => .ok (pick e (names .random) ++ [("parallel_interactions", .int 1)])
  | .dqn => .ok (dqnArgs (implicitPolicy e) false e)
  | .doubleDqn => .ok (dqnArgs (implicitPolicy e) true e)
  | .duelingDqn => .ok (dqnArgs (duelingPolicy e) true e)
  | .dpg => .ok (dpgArgs e)
  | .ac => .ok (criticArgs false e)
  | .a2c => .ok (criticArgs true e)
  | .vpg => gradientArgs (vpgOptimizer e) (.str "policy_gradient") e
  | .trpo => gradientArgs (trpoOptimizer e) trpoObjective e
  | .ppo => gradientArgs (ppoOptimizer e) (ppoObjective e) e

/-- `v[k]` -/
def index (k : String) : Val → Except Err Val
  | .dict items =>
    match find k items with
    | some v => .ok v
    | Option.none => .error (.key k)
  | _ => .error .type

/-- `v > n` for an integer. -/
def greater (n : Int) : Val → Except Err Bool
  | .int m => .ok (m > n)
  | .float q => .ok (q > n)
  | .bool b => .ok ((if b then 1 else 0) > n)
  | _ => .error .type

/-- The configuration of a `TensorforceAgent` with the default of `buffer_observe` (`tensorforce.py:393-430`); `max` is
`max_episode_timesteps`. -/
def bufferConfig (parallel update max : Val) (config : Args) : Except Err Args := do
  if ← greater 1 parallel then
    if (find "buffer_observe" config).isNone then
      if max.isNone then .error (.required "max_episode_timesteps")
      else .ok (put "buffer_observe" (.str "episode") config)
    else .ok config
  else
    let unit ← index "unit" update
    if unit.isStr "timesteps" then
      let size ← index "batch_size" update
      let frequency := (match update with | .dict items => find "frequency" items | _ => Option.none).getD size
      match find "buffer_observe" config with
      | Option.none =>
        match frequency with
        | .int n => .ok (put "buffer_observe" (.int n) config)
        | _ => .ok (put "buffer_observe" (.int 1) config)
      | some b =>
        match frequency with
        | .int n =>
          if b.isStr "episode" then .error (.value "buffer_observe")
          else if ← greater n b then .error (.value "buffer_observe")
          else .ok config
        | _ => .ok config
    else if unit.isStr "episodes" then
      if (find "buffer_observe" config).isNone then .ok (put "buffer_observe" (.str "episode") config) else .ok config
    else .ok config

/-- The check of `TensorforceConfig`, `core/config.py:34-35`: `False`, `"episode"` or an integer from 1. -/
def bufferValid : Option Val → Bool
  | Option.none => true
  | some (.bool _) => true
  | some (.str s) => s == "episode"
  | some (.int n) => decide (1 ≤ n)
  | some _ => false

/-- `dict(config)`, or an empty dictionary if there is none (`tensorforce.py:393-396`). -/
def configDict : Val → Except Err Args
  | .none => .ok []
  | .dict items => .ok items
  | _ => .error .type

/-- `tensorforce.py:387-388` -/
def memoryDefault : Val → Val
  | .none => .dict [("type", .str "recent")]
  | v => v

/-- `tensorforce.py:390-391` -/
def updateDefault : Val → Val
  | .int n => .dict [("unit", .str "timesteps"), ("batch_size", .int n)]
  | v => v

def get (k : String) (args : Args) : Val := (find k args).getD .none

/-- Checks for deprecated keys in `reward_estimation` and `summarizer`, `tensorforce.py:321-334`. -/
def checkKeys (args : Args) : Except Err Unit := do
  if ← (get "reward_estimation" args).contains "estimate_actions" then .error (.deprecated "estimate_actions")
  if ← (get "reward_estimation" args).contains "estimate_terminal" then .error (.deprecated "estimate_terminal")
  if !(get "summarizer" args).isNone then
    if ← (get "summarizer" args).contains "labels" then .error (.deprecated "labels")

/-- Checks of the additional arguments, `tensorforce.py:335-361`. -/
def checkExtra (rest : Args) : Except Err Unit :=
  match deprecatedBase.find? fun n => (find n rest).isSome with
  | some n => .error (.deprecated n)
  | Option.none =>
    match rest with
    | [] => .ok ()
    | (n, _) :: _ => .error (.invalid n)

/-- `TensorforceAgent.__init__` (`tensorforce.py:321-458`) up to the arguments for the model; `rest` are the additional
arguments. -/
def baseInit (args rest : Args) : Except Err Args := do
  checkKeys args
  checkExtra rest
  let memory := memoryDefault (get "memory" args)
  let update := updateDefault (get "update" args)
  let config ← configDict (get "config" args)
  let config ← bufferConfig (get "parallel_interactions" args) update (get "max_episode_timesteps" args) config
  if !bufferValid (find "buffer_observe" config) then .error .assertion
  .ok (put "memory" memory (put "update" update (put "config" (.dict config) args)))

/-- What lies outside: whether all actions are integers, and whether JSON can encode the values. -/
structure World where
  allInt : Val → Bool
  encodable : Args → Bool

structure Agent where
  kind : Kind
  /-- attribute `spec` -/
  spec : Args
  /-- arguments for `TensorforceAgent` or the model, see `handed` -/
  handed : Args
  /-- arguments for the model -/
  target : Args
  deriving Repr

/-- Creation of an agent which learns, if no required argument is missing. -/
def makeLearning (w : World) (k : Kind) (e : Env) (rest : Args) : Except Err Agent :=
  match (deprecated k).find? fun n => (find n rest).isSome with
  | some n => .error (.deprecated n)
  | Option.none => do
    let h ← handed k e
    match rest.find? fun a => (find a.1 h).isSome with
    | some a => .error (.unexpected a.1)
    | Option.none =>
      let t ← baseInit h rest
      if k = .duelingDqn && !w.allInt (e "actions") then .error (.value "actions")
      else .ok ⟨k, saved k e, h, t⟩

/-- Creation of a constant or random agent, if no required argument is missing. -/
def makeSimple (k : Kind) (e : Env) (rest : Args) : Except Err Agent :=
  match rest with
  | (n, _) :: _ => .error (.unexpected n)
  | [] => do
    let h ← handed k e
    .ok ⟨k, saved k e, h, h⟩

/-- Creation of an agent by its class. -/
def make (w : World) (k : Kind) (args : Args) : Except Err Agent :=
  match missing k args with
  | some n => .error (.missing n)
  | Option.none =>
    match k with
    | .constant | .random => makeSimple k (env k args) (extra k args)
    | _ => makeLearning w k (env k args) (extra k args)

/-- `Agent.create` for a dictionary (`agent.py:106-112`, `120-123`) with the key of a class. -/
def create (w : World) (spec : Args) : Except Err Agent :=
  let key := (find "agent" spec).getD ((find "type" spec).getD (.str "default"))
  match key with
  | .str s =>
    match registry.find? (·.1 == s) with
    | some (_, k) => make w k (remove "type" (remove "agent" spec))
    | Option.none => .error (.value "agent")
  | _ => .error .type

/-- The JSON file written by `initialize` and `save` (`agent.py:297-316`, `604-626`): without the arguments if these cannot
be encoded.  The specification of the internal states is `Val.other`. -/
def stored (w : World) (a : Agent) : Args :=
  (if w.encodable a.spec then a.spec else [("states", get "states" a.spec), ("actions", get "actions" a.spec)]) ++
    [("internals", .other 0), ("initial_internals", .other 1)]

/-- `agent['saver']['load'] = True` (`agent.py:190-197`). -/
def loadSaver (spec : Args) : Args :=
  match find "saver" spec with
  | some (.dict items) => put "saver" (.dict (put "load" (.bool true) items)) spec
  | _ => spec

/-- The maximum number of timesteps of the environment, unless it is saved (`agent.py:178-185`). -/
def limited (file : Args) (limit : Option Int) : Args :=
  match get "max_episode_timesteps" file, limit with
  | .none, some n => put "max_episode_timesteps" (.int n) file
  | _, _ => file

/-- `Agent.load` from a file, without further arguments; `limit` is the maximum number of timesteps of the environment, if there
is an environment with a maximum (`agent.py:176-207`). -/
def load (w : World) (file : Args) (limit : Option Int) : Except Err Agent :=
  create w (loadSaver (remove "initial_internals" (remove "internals" (limited file limit))))

end Verif.Family
