import Verif.Family.Model

/-!
# Specification of the agent classes

The documentation of the arguments (class comments of `tensorforce/agents/*.py`): documented defaults, and where an argument
belongs in the configuration of the Tensorforce agent.
-/

namespace Verif.Family

/-- The value of an argument: as given, or else the default. -/
def arg (args : Args) (n : String) (d : Val) : Val := (args.lookup n).getD d

/-- The entry of a nested configuration. -/
def look : List String → Val → Option Val
  | [], v => some v
  | k :: ks, .dict items =>
    match items.lookup k with
    | some v => look ks v
    | none => none
  | _ :: _, _ => none

/-- Documented defaults of the arguments which all agents with a policy have. -/
def commonDefaults (exploration : Rat) : List (String × Val) :=
  [("state_preprocessing", .str "linear_normalization"), ("exploration", .float exploration), ("variable_noise", .float 0),
    ("l2_regularization", .float 0), ("entropy_regularization", .float 0), ("parallel_interactions", .int 1),
    ("config", .none), ("saver", .none), ("summarizer", .none), ("tracking", .none), ("recorder", .none)]

/-- Documented arguments with documented defaults; required arguments have the entry `Val.none`.  The documentation of the
critic of `dpg.py` says "none" instead, see `critic_violation`. -/
def defaults : Kind → List (String × Val)
  | .tensorforce =>
    [("states", .none), ("actions", .none), ("max_episode_timesteps", .none), ("policy", .str "auto"), ("memory", .none),
      ("update", .none), ("optimizer", .none), ("objective", .none), ("reward_estimation", .none), ("baseline", .none),
      ("baseline_optimizer", .none), ("baseline_objective", .none)] ++ commonDefaults 0
  | .constant =>
    [("states", .none), ("actions", .none), ("max_episode_timesteps", .none), ("action_values", .none), ("config", .none),
      ("recorder", .none)]
  | .random =>
    [("states", .none), ("actions", .none), ("max_episode_timesteps", .none), ("config", .none), ("recorder", .none)]
  | .dqn | .doubleDqn | .duelingDqn =>
    [("states", .none), ("actions", .none), ("max_episode_timesteps", .none), ("memory", .none), ("batch_size", .none),
      ("network", .str "auto"), ("update_frequency", .float (1 / 4)), ("start_updating", .none),
      ("learning_rate", .float (1 / 1000)), ("huber_loss", .none), ("horizon", .int 1), ("discount", .float (99 / 100)),
      ("return_processing", .none), ("predict_terminal_values", .bool false), ("reward_processing", .none),
      ("target_update_weight", .float 1), ("target_sync_frequency", .int 1)] ++ commonDefaults 0
  | .dpg =>
    [("states", .none), ("actions", .none), ("max_episode_timesteps", .none), ("memory", .none), ("batch_size", .none),
      ("network", .str "auto"), ("use_beta_distribution", .bool true), ("update_frequency", .float 1),
      ("start_updating", .none), ("learning_rate", .float (1 / 1000)), ("horizon", .int 1), ("discount", .float (99 / 100)),
      ("return_processing", .none), ("predict_terminal_values", .bool false), ("reward_processing", .none),
      ("critic", .str "auto"), ("critic_optimizer", .float 1)] ++ commonDefaults (1 / 10)
  | .ac =>
    [("states", .none), ("actions", .none), ("max_episode_timesteps", .none), ("batch_size", .none), ("network", .str "auto"),
      ("use_beta_distribution", .bool false), ("memory", .str "minimum"), ("update_frequency", .float 1),
      ("learning_rate", .float (1 / 1000)), ("horizon", .int 1), ("discount", .float (99 / 100)), ("return_processing", .none),
      ("predict_terminal_values", .bool false), ("reward_processing", .none), ("critic", .str "auto"),
      ("critic_optimizer", .float 1)] ++ commonDefaults 0
  | .a2c =>
    [("states", .none), ("actions", .none), ("max_episode_timesteps", .none), ("batch_size", .none), ("network", .str "auto"),
      ("use_beta_distribution", .bool false), ("memory", .str "minimum"), ("update_frequency", .float 1),
      ("learning_rate", .float (1 / 1000)), ("horizon", .int 1), ("discount", .float (99 / 100)), ("return_processing", .none),
      ("advantage_processing", .none), ("predict_terminal_values", .bool false), ("reward_processing", .none),
      ("critic", .str "auto"), ("critic_optimizer", .float 1)] ++ commonDefaults 0
  | .vpg =>
    [("states", .none), ("actions", .none), ("max_episode_timesteps", .none), ("batch_size", .none), ("network", .str "auto"),
      ("use_beta_distribution", .bool false), ("memory", .str "minimum"), ("update_frequency", .float 1),
      ("learning_rate", .float (1 / 1000)), ("discount", .float (99 / 100)), ("return_processing", .none),
      ("advantage_processing", .none), ("predict_terminal_values", .bool false), ("reward_processing", .none),
      ("baseline", .none), ("baseline_optimizer", .none)] ++ commonDefaults 0
  | .trpo =>
    [("states", .none), ("actions", .none), ("max_episode_timesteps", .none), ("batch_size", .none), ("network", .str "auto"),
      ("use_beta_distribution", .bool false), ("memory", .str "minimum"), ("update_frequency", .float 1),
      ("learning_rate", .float (1 / 100)), ("linesearch_iterations", .int 10), ("subsampling_fraction", .float 1),
      ("discount", .float (99 / 100)), ("return_processing", .none), ("advantage_processing", .none),
      ("predict_terminal_values", .bool false), ("reward_processing", .none), ("baseline", .none),
      ("baseline_optimizer", .none)] ++ commonDefaults 0
  | .ppo =>
    [("states", .none), ("actions", .none), ("max_episode_timesteps", .none), ("batch_size", .none), ("network", .str "auto"),
      ("use_beta_distribution", .bool false), ("memory", .str "minimum"), ("update_frequency", .float 1),
      ("learning_rate", .float (1 / 1000)), ("multi_step", .int 10), ("subsampling_fraction", .float (33 / 100)),
      ("likelihood_ratio_clipping", .float (1 / 4)), ("discount", .float (99 / 100)), ("return_processing", .none),
      ("advantage_processing", .none), ("predict_terminal_values", .bool false), ("reward_processing", .none),
      ("baseline", .none), ("baseline_optimizer", .none)] ++ commonDefaults 0

/-- The value of an argument of a class. -/
def Value (k : Kind) (args : Args) (n : String) : Val := arg args n (((defaults k).lookup n).getD .none)

/-- Arguments which are passed on under the same name. -/
def sameName : List String :=
  ["states", "actions", "max_episode_timesteps", "parallel_interactions", "config", "recorder", "l2_regularization",
    "entropy_regularization", "state_preprocessing", "exploration", "variable_noise", "saver", "summarizer", "tracking"]

/-- Where the arguments belong, from their documentation: the path of the entry and its value, or that there is no entry.  `v`
are the values of the arguments. -/
def places (k : Kind) (v : String → Val) : List (List String × Option Val) :=
  match k with
  | .tensorforce | .constant | .random => []
  | .dqn | .doubleDqn | .duelingDqn =>
    -- "Replay memory capacity", "Number of timesteps per update batch", "Policy network configuration"
    [(["memory", "type"], some (.str "replay")), (["memory", "capacity"], some (v "memory")),
      (["update", "unit"], some (.str "timesteps")), (["update", "batch_size"], some (v "batch_size")),
      (["policy", "type"], some (.str "parametrized_value_policy")), (["policy", "network"], some (v "network")),
      -- "Dueling DQN": separate state values, the default of the policy
      (["policy", "state_value_mode"], if k = .duelingDqn then none else some (.str "implicit")),
      (["baseline", "state_value_mode"], if k = .duelingDqn then none else some (.str "implicit")),
      -- "Frequency of updates", "Number of timesteps before first update", "Optimizer learning rate", "Huber loss threshold"
      (["update", "frequency"], some (v "update_frequency")), (["update", "start"], some (v "start_updating")),
      (["optimizer", "type"], some (.str "adam")), (["optimizer", "learning_rate"], some (v "learning_rate")),
      (["objective", "type"], some (.str "action_value")),
      (["objective", "huber_loss"], some (v "huber_loss")),
      -- "horizon of discounted-sum reward estimation before target network estimate"
      (["reward_estimation", "horizon"], some (v "horizon")), (["reward_estimation", "discount"], some (v "discount")),
      (["reward_estimation", "predict_horizon_values"], some (.str "late")),
      (["reward_estimation", "predict_action_values"], some (.bool (k != .dqn))),
      (["reward_estimation", "return_processing"], some (v "return_processing")),
      (["reward_estimation", "predict_terminal_values"], some (v "predict_terminal_values")),
      (["reward_estimation", "reward_processing"], some (v "reward_processing")),
      -- "Target network update weight", "Interval between target network updates"
      (["baseline", "type"], some (.str "parametrized_value_policy")), (["baseline", "network"], some (v "network")),
      (["baseline_optimizer", "type"], some (.str "synchronization")),
      (["baseline_optimizer", "update_weight"], some (v "target_update_weight")),
      (["baseline_optimizer", "sync_frequency"], some (v "target_sync_frequency"))]
  | .dpg =>
    [(["memory", "type"], some (.str "replay")), (["memory", "capacity"], some (v "memory")),
      (["update", "unit"], some (.str "timesteps")), (["update", "batch_size"], some (v "batch_size")),
      (["policy", "type"], some (.str "parametrized_distributions")), (["policy", "network"], some (v "network")),
      (["policy", "temperature"], some (.float 0)), (["policy", "use_beta_distribution"], some (v "use_beta_distribution")),
      (["update", "frequency"], some (v "update_frequency")), (["update", "start"], some (v "start_updating")),
      (["optimizer", "type"], some (.str "adam")), (["optimizer", "learning_rate"], some (v "learning_rate")),
      (["objective"], some (.str "deterministic_policy_gradient")),
      -- "Horizon of discounted-sum reward estimation before critic estimate"
      (["reward_estimation", "horizon"], some (v "horizon")), (["reward_estimation", "discount"], some (v "discount")),
      (["reward_estimation", "predict_horizon_values"], some (.str "late")),
      (["reward_estimation", "predict_action_values"], some (.bool true)),
      (["reward_estimation", "return_processing"], some (v "return_processing")),
      (["reward_estimation", "predict_terminal_values"], some (v "predict_terminal_values")),
      (["reward_estimation", "reward_processing"], some (v "reward_processing")),
      -- "Critic network configuration", "Critic optimizer configuration"
      (["baseline", "type"], some (.str "parametrized_action_value")), (["baseline", "network"], some (v "critic")),
      (["baseline_optimizer"], some (v "critic_optimizer")), (["baseline_objective", "type"], some (.str "action_value"))]
  | .ac | .a2c =>
    [(["memory", "type"], some (.str "recent")),
      -- "Batch memory capacity, … default: minimum capacity"
      (["memory", "capacity"], match v "memory" with | .str "minimum" => none | m => some m),
      (["update", "unit"], some (.str "timesteps")), (["update", "batch_size"], some (v "batch_size")),
      (["policy", "type"], some (.str "parametrized_distributions")), (["policy", "network"], some (v "network")),
      (["policy", "temperature"], some (.float 1)), (["policy", "use_beta_distribution"], some (v "use_beta_distribution")),
      (["update", "frequency"], some (v "update_frequency")), (["optimizer", "type"], some (.str "adam")),
      (["optimizer", "learning_rate"], some (v "learning_rate")), (["objective"], some (.str "policy_gradient")),
      (["reward_estimation", "horizon"], some (v "horizon")), (["reward_estimation", "discount"], some (v "discount")),
      (["reward_estimation", "predict_horizon_values"], some (.str "early")),
      (["reward_estimation", "estimate_advantage"], some (.bool (k == .a2c))),
      (["reward_estimation", "predict_action_values"], some (.bool false)),
      (["reward_estimation", "return_processing"], some (v "return_processing")),
      (["reward_estimation", "predict_terminal_values"], some (v "predict_terminal_values")),
      (["reward_estimation", "reward_processing"], some (v "reward_processing")),
      (["baseline", "type"], some (.str "parametrized_state_value")), (["baseline", "network"], some (v "critic")),
      (["baseline_optimizer"], some (v "critic_optimizer")), (["baseline_objective", "type"], some (.str "state_value"))]
  | .vpg | .trpo | .ppo =>
    [(["memory", "type"], some (.str "recent")),
      (["memory", "capacity"], match v "memory" with | .str "minimum" => none | m => some m),
      -- "Number of episodes per update batch"
      (["update", "unit"], some (.str "episodes")), (["update", "batch_size"], some (v "batch_size")),
      (["policy", "type"], some (.str "parametrized_distributions")), (["policy", "network"], some (v "network")),
      (["policy", "temperature"], some (.float 1)), (["policy", "use_beta_distribution"], some (v "use_beta_distribution")),
      (["update", "frequency"], some (v "update_frequency")), (["optimizer", "learning_rate"], some (v "learning_rate")),
      (["reward_estimation", "horizon"], some (.str "episode")), (["reward_estimation", "discount"], some (v "discount")),
      (["reward_estimation", "return_processing"], some (v "return_processing")),
      (["reward_estimation", "reward_processing"], some (v "reward_processing"))] ++
    (match k with
      | .trpo => [(["optimizer", "optimizer"], some (.str "natural_gradient")),
          (["optimizer", "linesearch_iterations"], some (v "linesearch_iterations")),
          (["optimizer", "subsampling_fraction"], some (v "subsampling_fraction")),
          (["objective", "type"], some (.str "policy_gradient")), (["objective", "importance_sampling"], some (.bool true))]
      | .ppo => [(["optimizer", "optimizer"], some (.str "adam")), (["optimizer", "multi_step"], some (v "multi_step")),
          (["optimizer", "subsampling_fraction"], some (v "subsampling_fraction")),
          (["objective", "type"], some (.str "policy_gradient")), (["objective", "importance_sampling"], some (.bool true)),
          -- "Likelihood-ratio clipping threshold"
          (["objective", "clipping_value"], some (v "likelihood_ratio_clipping"))]
      | _ => [(["optimizer", "type"], some (.str "adam")), (["objective"], some (.str "policy_gradient"))]) ++
    (match v "baseline" with
      | .none => [(["baseline"], some .none), (["baseline_optimizer"], some .none), (["baseline_objective"], some .none),
          (["reward_estimation", "estimate_advantage"], some (.bool false)),
          (["reward_estimation", "predict_horizon_values"], some (.bool false))]
      | b =>
        -- "Baseline network configuration", "Baseline optimizer configuration", "Advantage processing"
        [(["baseline", "type"], some (.str "parametrized_state_value")), (["baseline", "network"], some b),
          (["baseline_optimizer"], some (v "baseline_optimizer")), (["baseline_objective", "type"], some (.str "state_value")),
          (["reward_estimation", "estimate_advantage"], some (.bool true)),
          (["reward_estimation", "predict_horizon_values"], some (.str "early")),
          (["reward_estimation", "predict_action_values"], some (.bool false)),
          (["reward_estimation", "predict_terminal_values"], some (v "predict_terminal_values")),
          (["reward_estimation", "advantage_processing"], some (v "advantage_processing"))])

/-- Classes with a fixed algorithm. -/
def Fixed (k : Kind) : Prop := k ≠ .tensorforce ∧ k ≠ .constant ∧ k ≠ .random

/-- Classes whose baseline is an option. -/
def HasBaseline (k : Kind) : Prop := k = .vpg ∨ k = .trpo ∨ k = .ppo

/-- An argument is not given, or its default is given. -/
def IsDefault (k : Kind) (args : Args) (n : String) : Prop :=
  args.lookup n = none ∨ args.lookup n = some (((defaults k).lookup n).getD .none)

/-- Required arguments, from the documentation and the signatures. -/
def required : Kind → List String
  | .tensorforce => ["states", "actions", "update", "optimizer", "objective", "reward_estimation"]
  | .constant | .random => ["states", "actions"]
  | .dqn | .doubleDqn | .duelingDqn | .dpg => ["states", "actions", "memory", "batch_size"]
  | .ac | .a2c => ["states", "actions", "batch_size"]
  | .vpg | .trpo | .ppo => ["states", "actions", "batch_size", "max_episode_timesteps"]

end Verif.Family
