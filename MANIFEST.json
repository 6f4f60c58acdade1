{
 "claims": [
  {
   "property": "C01",
   "status": "proved",
   "theorems": [
    "Verif.Props.Memory.enqueue_accepts_iff",
    "Verif.Props.Memory.memory_keeps_most_recent",
    "Verif.Props.Memory.recent_timesteps_no_horizon"
   ],
   "note": "Refinement of the circular buffer to a log, by induction over operations, including rejected batches and resets."
  },
  {
   "property": "C02",
   "status": "partial",
   "theorems": [
    "Verif.Props.Memory.episode_index_consistent_partial",
    "Verif.Props.Memory.full_length_episode_violation"
   ],
   "note": "The index part holds for every history: the list of addresses of the stored episode ends, without duplicates. The count part holds except that the count is -1, not 0, when an unfinished episode fills the memory (witness theorem)."
  },
  {
   "property": "C03",
   "status": "partial",
   "theorems": [
    "Verif.Props.Memory.recent_timesteps_partial",
    "Verif.Props.Memory.recent_timesteps_no_horizon",
    "Verif.Props.Memory.recent_timesteps_violation"
   ],
   "note": "Holds without horizons and whenever stored episodes + horizons <= stored timesteps; false otherwise (witness theorem: an unwritten slot is returned)."
  },
  {
   "property": "C04",
   "status": "partial",
   "theorems": [
    "Verif.Props.Memory.recent_episodes_partial",
    "Verif.Props.Memory.replay_episodes_partial",
    "Verif.Props.Memory.full_length_episode_violation"
   ],
   "note": "Proved for the episodes inside the last capacity-1 timesteps. Missing, and false: a finished episode of exactly capacity timesteps is stored but never retrieved (witness theorem)."
  },
  {
   "property": "C05",
   "status": "partial",
   "theorems": [
    "Verif.Props.Memory.replay_timesteps_partial",
    "Verif.Props.Memory.replay_timesteps_no_horizon",
    "Verif.Props.Memory.replay_timesteps_reaches_all",
    "Verif.Props.Memory.replay_timesteps_violation"
   ],
   "note": "As C03: proved when stored episodes + horizons <= stored timesteps and without horizons; false otherwise (witness theorem)."
  },
  {
   "property": "C06",
   "status": "partial",
   "theorems": [
    "Verif.Props.Memory.lookback_in_episode_partial",
    "Verif.Props.Memory.lookback_spec",
    "Verif.Props.Memory.fenced_of_accepted",
    "Verif.Props.Memory.lookback_after_rejection_violation"
   ],
   "note": "Proved for states reached without rejected batches, and after rejections if the last stored timestep is an episode end. False otherwise (witness theorem)."
  },
  {
   "property": "C07",
   "status": "partial",
   "theorems": [
    "Verif.Props.Memory.lookahead_in_episode_partial",
    "Verif.Props.Memory.lookahead_spec",
    "Verif.Props.Memory.fenced_of_accepted",
    "Verif.Props.Memory.lookahead_after_rejection_violation"
   ],
   "note": "As C06: proved without rejected batches, false after a rejected batch (witness theorem: look-ahead runs over the write head)."
  },
  {
   "property": "C08",
   "status": "partial",
   "theorems": [
    "Verif.Props.Returns.returns_textbook_partial",
    "Verif.Props.Returns.returns_independent_of_batching_partial",
    "Verif.Props.Returns.abort_loses_last_reward"
   ],
   "note": "Proved for every discount, buffering mode, constant horizon and partition, without value prediction, if episodes end regularly (code 1). Missing, and false: aborted episodes, whose last reward is dropped (witness theorem)."
  },
  {
   "property": "C09",
   "status": "partial",
   "theorems": [
    "Verif.Props.Returns.handed_over_exactly_once_partial",
    "Verif.Props.Returns.never_overwrites_early_partial",
    "Verif.Props.Returns.lam_single_timestep_violation"
   ],
   "note": "Invariant over act/observe histories of the circular, episode and agent-side buffers. Excluded: discount 0 with a needed value estimate, and TD(lambda) with episodes of one timestep, for which the code fails (witness theorem)."
  },
  {
   "property": "C10",
   "status": "partial",
   "theorems": [
    "Verif.Props.Returns.aborted_returns_partial",
    "Verif.Props.Returns.abort_loses_last_reward"
   ],
   "note": "False as stated: the last reward of an aborted episode is dropped (witness theorem). The partial theorem gives what is stored instead; excluded: discount 0."
  },
  {
   "property": "C11",
   "status": "proved",
   "theorems": [
    "Verif.Props.Schedule.gae_own_episode",
    "Verif.Props.Schedule.gae_no_leak"
   ],
   "note": "Closed form of the reverse scan for every batch, over exact rationals."
  },
  {
   "property": "C12",
   "status": "proved",
   "theorems": [
    "Verif.Props.Schedule.episode_schedule"
   ],
   "note": "Equality with the ideal schedule for every history of act/observe calls and constant frequency and start."
  },
  {
   "property": "C13",
   "status": "partial",
   "theorems": [
    "Verif.Props.Schedule.timestep_schedule_episode_horizon",
    "Verif.Props.Schedule.timestep_schedule_episode_buffer_partial",
    "Verif.Props.Schedule.timestep_schedule_first_episode_partial",
    "Verif.Props.Schedule.timestep_schedule_later_partial",
    "Verif.Props.Schedule.no_update_before_effective_start",
    "Verif.Props.Schedule.start_ignored_violation",
    "Verif.Props.Schedule.frequency_violation"
   ],
   "note": "Holds for reward horizon \"episode\". For a finite horizon it is false (two witness theorems: start ignored after the first episode, updates closer than the frequency); partial theorems cover the first episode and everything after the first later update."
  },
  {
   "property": "C14",
   "status": "partial",
   "theorems": [
    "Verif.Props.Agent.act_observe_alternate_partial",
    "Verif.Props.Agent.rejected_call_no_effect_partial",
    "Verif.Props.Agent.counters_count_accepted",
    "Verif.Props.Agent.failed_act_violation",
    "Verif.Props.Agent.too_long_violation",
    "Verif.Props.Agent.duplicate_index_violation"
   ],
   "note": "Counters: proved for every history. Alternation and effect-free rejection: proved if no call fails after it passed the check and no index is given twice; false otherwise (three witness theorems). The updates counter is not in this model."
  },
  {
   "property": "C15",
   "status": "proved",
   "theorems": [
    "Verif.Props.Agent.buffering_loses_nothing",
    "Verif.Props.Agent.reset_empties"
   ],
   "note": "For every buffer size >= 1 or whole episodes, every history (accepted, rejected and failing calls), from creation or from any reset; a reset drops the buffer content. Model.observe itself is assumed not to fail."
  },
  {
   "property": "C16",
   "status": "partial",
   "theorems": [
    "Verif.Props.Agent.traces_written_partial",
    "Verif.Props.Agent.traces_whole_episodes",
    "Verif.Props.Agent.smooth_if",
    "Verif.Props.Agent.mid_episode_start_violation",
    "Verif.Props.Agent.misaligned_trace_violation",
    "Verif.Props.Agent.empty_stack_violation",
    "Verif.Props.Agent.reset_trace_violation"
   ],
   "note": "Proved without resets if recording starts between episodes (always so for start 0 or one interaction) and no call fails after its check. False otherwise (four witness theorems)."
  },
  {
   "property": "C17",
   "status": "partial",
   "theorems": [
    "Verif.Props.Wrapper.limit_enforced_partial",
    "Verif.Props.Wrapper.at_most_m_steps",
    "Verif.Props.Wrapper.refused_untouched",
    "Verif.Props.Wrapper.wrapLimit_spec",
    "Verif.Props.Wrapper.limit_enforced_vectorized_partial",
    "Verif.Props.Wrapper.negative_code_not_aborted"
   ],
   "note": "False as stated for environments or shaping functions that report a code below zero at step m (negative_code_not_aborted). Otherwise proved for every environment and reward shaping function (which may raise) and every call history. The bound of m steps holds for all codes."
  },
  {
   "property": "C18",
   "status": "partial",
   "theorems": [
    "Verif.Props.Remote.remote_lockstep",
    "Verif.Props.Remote.remote_serves",
    "Verif.Props.Remote.failure_is_final",
    "Verif.Props.Remote.remote_eq_direct_partial",
    "Verif.Props.Remote.blocking_pair",
    "Verif.Props.Remote.attribute_error_swallowed_violation",
    "Verif.Props.Remote.none_attribute_violation",
    "Verif.Props.Remote.setting_calls_violation"
   ],
   "note": "The message protocol is proved lock-step for every object and history, and failures are final. False as stated for attribute access: three witness theorems; the partial theorem covers all other operations."
  },
  {
   "property": "C19",
   "status": "partial",
   "theorems": [
    "Verif.Props.Remote.nonblocking_success_partial",
    "Verif.Props.Remote.failure_never_reported_violation"
   ],
   "note": "Successful calls are reported under every schedule; failing calls are never reported (proved for every object, state and polling schedule)."
  },
  {
   "property": "C20",
   "status": "partial",
   "theorems": [
    "Verif.Props.Socket.recvFrame_sound",
    "Verif.Props.Socket.response_sound",
    "Verif.Props.Socket.request_sound",
    "Verif.Props.Socket.responses_roundtrip_partial",
    "Verif.Props.Socket.request_roundtrip_partial",
    "Verif.Props.Socket.long_message_violation",
    "Verif.Props.Socket.split_read_violation"
   ],
   "note": "Safety (never a wrong message) for every chunking; the round trip only below 4096 bytes and with full reads. Messages of 4096 bytes or more are proved to be always refused."
  },
  {
   "property": "C21",
   "status": "partial",
   "theorems": [
    "Verif.Props.NestedDict.stored_is_read",
    "Verif.Props.NestedDict.history_refines_map",
    "Verif.Props.NestedDict.contains_iff_readable",
    "Verif.Props.NestedDict.iteration_agrees",
    "Verif.Props.NestedDict.fmap_keeps_paths",
    "Verif.Props.NestedDict.insertion_order_partial",
    "Verif.Props.NestedDict.insertion_order_violation",
    "Verif.Props.NestedDict.no_overwrite_partial",
    "Verif.Props.NestedDict.singleton_overwrite_violation"
   ],
   "note": "Map laws, membership, length and iteration are proved for every history and depth. Iteration order is insertion order only within one level: a witness shows a/x, b, a/y iterating as a/x, a/y, b. Segments named SINGLETON and aliasing of sub-dictionaries are not modelled."
  },
  {
   "property": "C22",
   "status": "partial",
   "theorems": [
    "Verif.Props.Signature.flatten_roundtrip_partial",
    "Verif.Props.Signature.flatten_injective_partial",
    "Verif.Props.Signature.flattened_is_rebuildable",
    "Verif.Props.Signature.nested_singleton_violation",
    "Verif.Props.Signature.missing_argument_violation"
   ],
   "note": "Round trip for every signature without a singleton directly inside a singleton; that case is refused by the code (witness). Only the tuple form (to_dict=False) is modelled."
  },
  {
   "property": "C23",
   "status": "partial",
   "theorems": [
    "Verif.Props.TensorSpec.unify_accepts_common_partial",
    "Verif.Props.TensorSpec.unify_sound_partial",
    "Verif.Props.TensorSpec.different_num_values_raise",
    "Verif.Props.TensorSpec.unify_comm_partial",
    "Verif.Props.TensorSpec.unify_idem_partial",
    "Verif.Props.TensorSpec.max_violation",
    "Verif.Props.TensorSpec.disjoint_violation",
    "Verif.Props.TensorSpec.num_values_violation",
    "Verif.Props.TensorSpec.scalar_violation",
    "Verif.Props.TensorSpec.reversed_shape_violation",
    "Verif.Props.TensorSpec.commutativity_violation",
    "Verif.Props.TensorSpec.single_value_violation"
   ],
   "note": "False as stated: seven witness theorems. Partial theorems give both directions under stated conditions on bounds and shapes, commutativity and idempotence. Array bounds are not modelled."
  },
  {
   "property": "C24",
   "status": "partial",
   "theorems": [
    "Verif.Props.Config.is_equal_sound_partial",
    "Verif.Props.Config.is_equal_complete",
    "Verif.Props.Config.different_length_violation",
    "Verif.Props.Config.empty_shape_violation",
    "Verif.Props.Config.broadcast_violation"
   ],
   "note": "False as stated: sequences of different lengths compare equal (witnesses). Proved for all nestings in which corresponding sequences have equal lengths. Arrays are one-dimensional."
  },
  {
   "property": "C25",
   "status": "partial",
   "theorems": [
    "Verif.Props.Config.merge_keeps_target",
    "Verif.Props.Config.merge_keeps_source",
    "Verif.Props.Config.merge_adds_nothing",
    "Verif.Props.Config.merge_raises_iff",
    "Verif.Props.Config.equal_array_violation",
    "Verif.Props.Config.list_tuple_agree"
   ],
   "note": "Everything but \"equal settings are accepted\" is proved for all nestings; equal arrays raise (witness). A failing merge leaves the target partly updated, which the model does not show."
  },
  {
   "property": "C26",
   "status": "partial",
   "theorems": [
    "Verif.Props.Explore.masked_valid",
    "Verif.Props.Explore.masked_every",
    "Verif.Props.Explore.masked_valid_float",
    "Verif.Props.Explore.masked_every_float",
    "Verif.Props.Explore.masked_uniform",
    "Verif.Props.Explore.explore_masked_valid",
    "Verif.Props.Explore.choose_entry",
    "Verif.Props.Explore.explore_masked_every",
    "Verif.Props.Explore.explore_int_within",
    "Verif.Props.Explore.explore_int_every",
    "Verif.Props.Explore.explore_float_within",
    "Verif.Props.Explore.explore_float_every",
    "Verif.Props.Explore.explore_keeps",
    "Verif.Props.Explore.global_amount",
    "Verif.Props.Explore.random_masked",
    "Verif.Props.Explore.random_within",
    "Verif.Props.Explore.random_float_every_partial",
    "Verif.Props.Explore.random_last_violation",
    "Verif.Props.Explore.random_bound_violation",
    "Verif.Props.Explore.random_fails_violation",
    "Verif.Props.Explore.int_exploration_violation",
    "Verif.Props.Explore.per_action_violation"
   ],
   "note": "Masked choice and exploration of actions with num_values or float bounds are proved for every mask, tensor and outcome, the masked choice also in 32-bit arithmetic (rounding with relative error 2^-24). False for the random agent without masking (last value or upper bound never chosen, one value or one bound raises), for exploration of int actions without num_values and for exploration per action (both raise). Random numbers are arguments."
  },
  {
   "property": "C27",
   "status": "partial",
   "theorems": [
    "Verif.Props.Prep.sequence_stack_partial",
    "Verif.Props.Prep.sequence_stream",
    "Verif.Props.Prep.sequence_refuses_batches",
    "Verif.Props.Prep.lastStack_entry",
    "Verif.Props.Prep.calm_single",
    "Verif.Props.Prep.overlap_violation",
    "Verif.Props.Prep.other_terminal_violation",
    "Verif.Props.Prep.independent_violation",
    "Verif.Props.Prep.agent_reset_violation"
   ],
   "note": "False as stated for interleaved episodes: the layer state is shared by all parallel interactions (witness theorems); batched act is refused. What the layer computes is proved for every length and every history (sequence_stream); the stated property for histories without overlapping episodes, independent act or reset within an episode. One layer, one axis, exact values; assertions on."
  },
  {
   "property": "C28",
   "status": "partial",
   "theorems": [
    "Verif.Props.Prep.delta_partial",
    "Verif.Props.Prep.delta_stream",
    "Verif.Props.Prep.delta_refuses_batches",
    "Verif.Props.Prep.first_delta",
    "Verif.Props.Prep.deltas_telescope",
    "Verif.Props.Prep.delta_overlap_violation",
    "Verif.Props.Prep.delta_other_terminal_violation",
    "Verif.Props.Prep.delta_disturbed_violation"
   ],
   "note": "As for C27: false for interleaved episodes, independent act and reset within an episode (witness theorems), proved for all other histories; telescoping is proved for every episode. Exact arithmetic."
  },
  {
   "property": "C29",
   "status": "partial",
   "theorems": [
    "Verif.Props.Param.decaying_range_partial",
    "Verif.Props.Param.range_inverse_partial",
    "Verif.Props.Param.decaying_start_partial",
    "Verif.Props.Param.decaying_start_plain_partial",
    "Verif.Props.Param.decaying_limit_partial",
    "Verif.Props.Param.decaying_constant_partial",
    "Verif.Props.Param.decaying_announced",
    "Verif.Props.Param.int_schedule_truncates",
    "Verif.Props.Param.periods",
    "Verif.Props.Param.restarts_periodic",
    "Verif.Props.Param.cycle_reaches_final",
    "Verif.Props.Param.inverse_time_constant_violation",
    "Verif.Props.Param.inverse_time_final_violation",
    "Verif.Props.Param.inverse_minimum_violation",
    "Verif.Props.Param.cosine_final_violation",
    "Verif.Props.Param.restarts_maximum_violation",
    "Verif.Props.Param.linear_cosine_start_violation",
    "Verif.Props.Param.linear_cosine_final_violation",
    "Verif.Props.Param.noise_violation",
    "Verif.Props.Param.int_final_violation"
   ],
   "note": "False as stated: nine witness theorems. Range, start, limit and constancy are proved for every step and all other configurations. Cosine, real powers and the restart index come from an oracle with stated laws (shown satisfiable); the Keras formulas are trusted."
  },
  {
   "property": "C30",
   "status": "partial",
   "theorems": [
    "Verif.Props.Param.linear_start",
    "Verif.Props.Param.linear_monotone",
    "Verif.Props.Param.linear_no_overshoot",
    "Verif.Props.Param.linear_final_partial",
    "Verif.Props.Param.linear_last_step_violation"
   ],
   "note": "Everything but the last step is proved for all values, lengths and steps; at step num_steps a non-constant float schedule never equals its final value (proved for all of them), it does from num_steps + 1 on."
  },
  {
   "property": "C31",
   "status": "proved",
   "theorems": [
    "Verif.Props.Param.piecewise_constant",
    "Verif.Props.Param.piecewise_value",
    "Verif.Props.Param.piecewise_position",
    "Verif.Props.Param.piecewise_total",
    "Verif.Props.Param.piecewise_final"
   ],
   "note": "For every accepted boundary list (sorted, not empty, first one positive), any values and every step. The Keras schedule the code calls is written out from its documentation (trusted)."
  },
  {
   "property": "C32",
   "status": "partial",
   "theorems": [
    "Verif.Props.Optim.step_reported_partial",
    "Verif.Props.Optim.global_synchronised",
    "Verif.Props.Optim.multi_step_repeats",
    "Verif.Props.Optim.clipped_step",
    "Verif.Props.Optim.plus_steps",
    "Verif.Props.Optim.evolutionary_direction",
    "Verif.Props.Optim.evolutionary_mean",
    "Verif.Props.OptimFloat.reversal_violation"
   ],
   "note": "Proved in exact arithmetic for every nesting, loss and batch, including the evolutionary, natural gradient and TensorFlow optimizers. False with 32-bit rounding: a reversed step is reported as zero although the variable changed (witness). All variables are one vector; gradients, natural gradients, random numbers and samples are arbitrary functions."
  },
  {
   "property": "C33",
   "status": "partial",
   "theorems": [
    "Verif.Props.Optim.doublecheck_partial",
    "Verif.Props.Optim.doublecheck_keeps",
    "Verif.Props.OptimFloat.reversal_exact",
    "Verif.Props.OptimFloat.reversal_violation",
    "Verif.Props.OptimFloat.larger_loss_violation"
   ],
   "note": "Proved in exact arithmetic for every loss and inner optimizer, and for every rounding function if the difference of new and old value is representable. False with 32-bit rounding otherwise (witnesses): adding and subtracting a large update loses a small variable."
  },
  {
   "property": "C34",
   "status": "partial",
   "theorems": [
    "Verif.Props.Optim.linesearch_partial",
    "Verif.Props.Optim.linesearch_kept",
    "Verif.Props.Optim.linesearch_full",
    "Verif.Props.Optim.one_more_violation",
    "Verif.Props.Optim.worse_than_start_violation"
   ],
   "note": "False in one point: k can be one more than the iteration limit (witness). Everything else is proved in exact arithmetic for every loss, inner optimizer, factor and limit, with a full characterisation of the multiple kept; the last multiple is covered too. Rounding is not modelled. A step of exactly zero is kept as it is."
  },
  {
   "property": "C35",
   "status": "partial",
   "theorems": [
    "Verif.Props.Sync.schedule_partial",
    "Verif.Props.Sync.weight_one",
    "Verif.Props.Sync.moved_one",
    "Verif.Props.Sync.scheduled",
    "Verif.Props.Sync.sync_reports",
    "Verif.Props.OptimFloat.weight_one_violation"
   ],
   "note": "Proved in exact arithmetic for every constant frequency, constant or scheduled weight and all sources; scheduled frequencies too. False with 32-bit rounding for a weight that has the value 1 but is not constant (witness)."
  },
  {
   "property": "C36",
   "status": "proved",
   "theorems": [
    "Verif.Props.Subsample.windows_kept",
    "Verif.Props.Subsample.subsample_total",
    "Verif.Props.Subsample.out_of_range",
    "Verif.Props.Subsample.size_spec",
    "Verif.Props.Subsample.arguments_spec"
   ],
   "note": "For every batch, horizon table and index list for which subsampling does not raise; it does not raise for valid horizons and indices of the batch. Indexing out of range is taken to raise, as on CPU. All state entries together are one list, all other arguments another."
  },
  {
   "property": "C37",
   "status": "partial",
   "theorems": [
    "Verif.Props.Conj.residual_partial",
    "Verif.Props.Conj.residual_offset",
    "Verif.Props.Conj.stops_small",
    "Verif.Props.Conj.goes_on",
    "Verif.Props.Conj.denominators",
    "Verif.Props.Conj.zero_solved",
    "Verif.Props.Conj.damping_violation",
    "Verif.Props.Conj.leaves_solution_violation"
   ],
   "note": "Proved in exact arithmetic for every linear operator, right-hand side, damping and iteration count if the solver starts at zero (its only use) or without damping. False otherwise: the start leaves the damping out, and the tracked residual is off by damping * x0 throughout (proved for all such cases). Rounding is not modelled."
  },
  {
   "property": "C38",
   "status": "partial",
   "theorems": [
    "Verif.Props.Runner.protocol_partial",
    "Verif.Props.Runner.counters_partial",
    "Verif.Props.Runner.ends_for_a_reason",
    "Verif.Props.Runner.episodes_at_most",
    "Verif.Props.Runner.joint_episodes_at_most",
    "Verif.Props.Runner.episodes_at_least",
    "Verif.Props.Runner.one_environment_episodes",
    "Verif.Props.Runner.evaluation_episodes",
    "Verif.Props.Runner.joint_episodes",
    "Verif.Props.Runner.surplus_episode",
    "Verif.Props.Runner.run_ends_partial",
    "Verif.Props.Runner.timesteps_at_most",
    "Verif.Props.Runner.one_environment_timesteps",
    "Verif.Props.Runner.timestep_limit_partial",
    "Verif.Props.Runner.update_limit_partial",
    "Verif.Props.Runner.batch_cut_violation",
    "Verif.Props.Runner.batch_count_violation",
    "Verif.Props.Runner.joint_reset_violation",
    "Verif.Props.Runner.evaluation_violation"
   ],
   "note": "One environment: exactly N episodes (training or evaluation alone) and exactly T timesteps, for every environment, agent and callback behaviour. Several environments: at most train-1 episodes or timesteps more, exactly N with joint resets, the reset/act/execute/observe protocol of each environment, and an end (N+envs)*(L+1) iterations after the start for episodes of at most L timesteps, or once every environment answered twice after a timestep or update limit. False as stated (witness theorems): joint resets without num_episodes never end whatever the timestep or update limit, an evaluation episode is never cut off, and batched calls cut an episode off after the agent was told it goes on. Not covered: vectorized environments, exceptions, limits other than episodes and the termination bound with batched calls, the termination bound with an evaluation environment beside training ones (for evaluation alone see C51)."
  },
  {
   "property": "C39",
   "status": "partial",
   "theorems": [
    "Verif.Props.Best.best_partial",
    "Verif.Props.Best.exceeded_partial",
    "Verif.Props.Best.first_best_violation",
    "Verif.Props.Best.nan_violation",
    "Verif.Props.Best.second_run_violation",
    "Verif.Props.Best.default_score",
    "Verif.Props.Best.callback_score"
   ],
   "note": "False as stated: the first evaluation is never saved, a first score that is not a number blocks saving for good, and a second run call forgets the best score and overwrites a better agent (witness theorems, the first two for all later scores). Proved for every list of finite scores: the saved agent is the first best one unless that is the first evaluation."
  },
  {
   "property": "C40",
   "status": "partial",
   "theorems": [
    "Verif.Props.Store.numpy_latest_partial",
    "Verif.Props.Store.hdf5_latest_partial",
    "Verif.Props.Store.never_older_numpy",
    "Verif.Props.Store.never_older_hdf5",
    "Verif.Props.Store.checkpoint_latest_partial",
    "Verif.Props.Store.unnumbered_alone",
    "Verif.Props.Store.unnumbered_checkpoint",
    "Verif.Props.Store.explicit_file",
    "Verif.Props.Store.unrelated_violation",
    "Verif.Props.Store.foreign_number_violation",
    "Verif.Props.Store.unnumbered_violation",
    "Verif.Props.Store.both_violation",
    "Verif.Props.Store.mixed_violation",
    "Verif.Props.Store.h5_violation",
    "Verif.Props.Store.h5_digits_violation",
    "Verif.Props.Store.explicit_h5_violation",
    "Verif.Props.Store.other_base_violation"
   ],
   "note": "Proved for every directory listing whose archives beginning with the base name are its numbered saves of one format: the largest number is restored. Whatever the directory contains, a numbered save that is restored is the latest of its format. False as stated (witness theorems): a file that merely begins like the base name makes restoring fail or counts as a save, unnumbered saves win or make it fail, saves in both formats fail, numbers of .h5 files are truncated, the last checkpoint is taken whatever its base name. The choice of tf.train.latest_checkpoint is an input of the model."
  },
  {
   "property": "C41",
   "status": "partial",
   "theorems": [
    "Verif.Props.Archive.numpy_partial",
    "Verif.Props.Archive.numpy_last",
    "Verif.Props.Archive.wellNamed_iff",
    "Verif.Props.Archive.key_own",
    "Verif.Props.Archive.key_other",
    "Verif.Props.Archive.hdf5_partial",
    "Verif.Props.Archive.hdf5_written_iff",
    "Verif.Props.Archive.collision_violation",
    "Verif.Props.Archive.collision_hdf5_violation",
    "Verif.Props.Archive.nested_violation",
    "Verif.Props.Archive.file_violation",
    "Verif.Props.Archive.output_number_violation",
    "Verif.Props.Archive.memory_between_episodes",
    "Verif.Props.Archive.unfinished_episode_violation"
   ],
   "note": "Proved for every list of variables whose names differ after removing the model name and output number (for hdf5: no name is a path above another), also into a model of another name. False as stated (witness theorems): colliding names, the name \"file\" (numpy), a variable named like a module (hdf5); the reset at the end of restoring changes a memory saved within an episode. Exact values; np.savez and h5py are modelled from their documentation."
  },
  {
   "property": "C42",
   "status": "partial",
   "theorems": [
    "Verif.Props.Temporal.internals_partial",
    "Verif.Props.Temporal.outputs_eq",
    "Verif.Props.Temporal.outputs_partial",
    "Verif.Props.Temporal.cumulative_partial",
    "Verif.Props.Temporal.trimmed_violation",
    "Verif.Props.Temporal.zero_violation",
    "Verif.Props.Temporal.shorter_violation"
   ],
   "note": "Proved for every cell, horizon and batch of windows: the internals are those of folding the cell over the last min(h+1, length) inputs, if no window is longer than needed or assertions are off. False as stated (witness theorems): windows longer than needed always fail the consistency check, the output of a window shorter than the longest one applies the cell once more to its last input, and a constant horizon of zero fails or leaves the internals unchanged. Shape invariants of tf.while_loop are not modelled."
  },
  {
   "property": "C43",
   "status": "partial",
   "theorems": [
    "Verif.Props.Shape.reshape",
    "Verif.Props.Shape.reshape_builds",
    "Verif.Props.Shape.reshape_size",
    "Verif.Props.Shape.pooling",
    "Verif.Props.Shape.pooling_builds",
    "Verif.Props.Shape.flatten",
    "Verif.Props.Shape.flatten_builds",
    "Verif.Props.Shape.conv",
    "Verif.Props.Shape.conv_builds",
    "Verif.Props.Shape.crelu_fails",
    "Verif.Props.Shape.dense_partial",
    "Verif.Props.Shape.dense_crelu_violation",
    "Verif.Props.Shape.pool",
    "Verif.Props.Shape.pool_builds",
    "Verif.Props.Shape.pool_upper",
    "Verif.Props.Shape.transpose_partial",
    "Verif.Props.Shape.transpose_builds",
    "Verif.Props.Shape.transpose_channels_violation",
    "Verif.Props.Shape.output_width_fails",
    "Verif.Props.Shape.retrieve_partial",
    "Verif.Props.Shape.retrieve_one",
    "Verif.Props.Shape.concat_builds",
    "Verif.Props.Shape.stack_builds",
    "Verif.Props.Shape.sum_builds",
    "Verif.Props.Shape.broadcast_fails",
    "Verif.Props.Shape.broadcast_announced",
    "Verif.Props.Shape.concat_axis_violation",
    "Verif.Props.Shape.stack_axis_violation",
    "Verif.Props.Shape.concat_rejects",
    "Verif.Props.Shape.stack_rejects",
    "Verif.Props.Shape.sum_rejects"
   ],
   "note": "Reshape, flatten, global and local pooling and convolution: proved for every input shape and argument, with the shapes of all usual configurations. Retrieval: proved unless tensors are concatenated or stacked along the batch axis, which axis -1 does undetected (witness theorems). Transposed convolution: the shape is right whenever the operation succeeds, but with other than as many outputs as inputs the layer is built and then always fails. TensorFlow operations and the Keras length functions are modelled from their documentation."
  },
  {
   "property": "C44",
   "status": "partial",
   "theorems": [
    "Verif.Props.Create.create_honours_arguments_partial",
    "Verif.Props.Create.create_honours_specification_partial",
    "Verif.Props.Create.given_twice_raises",
    "Verif.Props.Create.specification_limit_honoured",
    "Verif.Props.Create.wrapper_shaping_violation",
    "Verif.Props.Create.object_kwargs_violation",
    "Verif.Props.Create.override_violation",
    "Verif.Props.Create.type_dropped_violation"
   ],
   "note": "False as stated: four witness theorems (dropped shaping, dropped keyword arguments, explicit limit raises instead of overriding, dropped type). The partial theorems cover all other cases at every nesting. Only the local branches are modelled."
  },
  {
   "property": "C45",
   "status": "partial",
   "theorems": [
    "Verif.Props.Returns.bootstrapped_returns_partial",
    "Verif.Props.Returns.lam_single_timestep_violation"
   ],
   "note": "Missing: discount 0 with a needed value estimate (non-finite), and single-timestep episodes with trace decay (witness theorem: the code fails). The baseline is a function of the single state (baseline horizon 0)."
  },
  {
   "property": "C46",
   "status": "partial",
   "theorems": [
    "Verif.Props.Local.start_receive_eq_direct_partial",
    "Verif.Props.Local.out_of_order_raises",
    "Verif.Props.Local.after_failure_violation"
   ],
   "note": "Proved for histories in which no execute raises before the last call; false after an exception (witness theorem)."
  },
  {
   "property": "C47",
   "status": "partial",
   "theorems": [
    "Verif.Props.Agent.trace_retention_partial",
    "Verif.Props.Agent.single_trace_violation",
    "Verif.Props.Agent.earlier_run_violation"
   ],
   "note": "Proved for no limit and max-traces >= 2 from an empty directory, for every history. False for max-traces 1 and with traces of an earlier run in the directory (witness theorems)."
  },
  {
   "property": "C48",
   "status": "partial",
   "theorems": [
    "Verif.Props.Store.load_finds_partial",
    "Verif.Props.Store.load_reads_own",
    "Verif.Props.Store.dotted_violation",
    "Verif.Props.Store.appended_checkpoint_violation"
   ],
   "note": "Proved for base names without a dot except at their beginning (with an extension also with dots), with or without number, if no specification was saved under the numbered name. False as stated (witness theorems, for all such names): a base name with a dot, checkpoints saved with an appended number, whose file names get two numbers."
  },
  {
   "property": "C49",
   "status": "partial",
   "theorems": [
    "Verif.Props.Transform.once_partial",
    "Verif.Props.Transform.rnn_partial",
    "Verif.Props.Transform.rnn_violation",
    "Verif.Props.Transform.rnn_squeeze_violation",
    "Verif.Props.Transform.rnn_squeeze_bias",
    "Verif.Props.Transform.dropout_fails",
    "Verif.Props.Transform.dropout_mismatch",
    "Verif.Props.Transform.attention_fails"
   ],
   "note": "Proved for every size, bias and activation of all layers except Rnn, without dropout. False as stated (witness theorems, for all such layers): Rnn applies bias and activation twice and cannot be used with size 0, no layer works with dropout, SelfAttention with an activation cannot be constructed. Operations are recorded as a list, their values are not modelled; outside the model: SelfAttention of size 0, the activation crelu, and values computed by TensorFlow."
  },
  {
   "property": "C50",
   "status": "partial",
   "theorems": [
    "Verif.Props.Graph.own_graph_partial",
    "Verif.Props.Graph.same_keys",
    "Verif.Props.Graph.built_once",
    "Verif.Props.Graph.no_variables",
    "Verif.Props.Graph.graphs_nodup",
    "Verif.Props.Graph.name_violation",
    "Verif.Props.Graph.order_violation",
    "Verif.Props.Graph.module_violation",
    "Verif.Props.Graph.function_violation",
    "Verif.Props.Graph.variable_violation",
    "Verif.Props.Graph.string_violation",
    "Verif.Props.Graph.other_fails"
   ],
   "note": "Proved for every history of calls with plain values (None, bools, ints, strings, tuples of these) under the same names in the same order; in any case a graph with the same key runs, and it is built once. False as stated (witness theorems): names are not part of the key, so another order of keyword arguments runs another graph; modules of one class, functions of one name, variables of one name, and a string naming a class share a graph. The calls of objectives with a policy in core/models/tensorforce.py do not collide; other call sites were not all examined. Outside the model: super() calls, api functions that are not initialized, floats; str is taken to be injective on keys."
  },
  {
   "property": "C51",
   "status": "partial",
   "theorems": [
    "Verif.Props.Trace.due_partial",
    "Verif.Props.Trace.over_ended_partial",
    "Verif.Props.Trace.timesteps_counted_partial",
    "Verif.Props.Trace.updates_counted_partial",
    "Verif.Props.Trace.episode_timestep_partial",
    "Verif.Props.Trace.answers_move_partial",
    "Verif.Props.Trace.evaluation_resets",
    "Verif.Props.Trace.evaluation_ends_partial",
    "Verif.Props.Trace.batch_due_violation",
    "Verif.Props.Runner.batch_cut_violation",
    "Verif.Props.Runner.evaluation_violation"
   ],
   "note": "Proved for separate agent calls: every reset, act, execute and observe of every environment was due when it happened, for every environment, agent and callback behaviour and any number of iterations; the counters are the numbers of these events; a run with evaluation alone ends. False as stated (witness theorems): with batched calls a run can be over while an episode has not ended for the agent, and an evaluation episode goes on after a limit is reached. Not covered: batched calls otherwise, vectorized environments, exceptions."
  },
  {
   "property": "C52",
   "status": "partial",
   "theorems": [
    "Verif.Props.Policy.act_in_space_partial",
    "Verif.Props.Policy.mask_violation"
   ],
   "note": "Proved for all four distributions, every temperature and all random numbers, over every ordered field with elementary functions satisfying Laws (real functions do). False as stated: with more than a million allowed values of a masked action sampling gives a masked value (witness theorem). Missing besides: masked actions whose network outputs are below -10^30. Rounding is not modelled."
  },
  {
   "property": "C53",
   "status": "proved",
   "theorems": [
    "Verif.Props.Policy.zero_temperature"
   ],
   "note": "For every number of actions, all four distributions, arbitrary elementary functions and random numbers; the proof uses no arithmetic, so it does not depend on exact arithmetic."
  },
  {
   "property": "C54",
   "status": "partial",
   "theorems": [
    "Verif.Props.Policy.temperature_partial",
    "Verif.Props.Policy.temperature_violation"
   ],
   "note": "False as stated: with a dictionary of temperatures, an action without an entry has temperature 0.0 (for all such dictionaries). Proved for every action with an entry, for a common temperature and for none. Temperatures are constants; a dictionary with keys other than action names is a parameter specification, which is not modelled."
  },
  {
   "property": "C55",
   "status": "partial",
   "theorems": [
    "Verif.Props.Policy.reaches_partial",
    "Verif.Props.Policy.inverts_partial",
    "Verif.Props.Policy.beta_inverts",
    "Verif.Props.Policy.tanh_inverts",
    "Verif.Props.Policy.tanh_density",
    "Verif.Props.Policy.reach_violation"
   ],
   "note": "Proved for the beta distribution and the Gaussian without bounds or with two bounds; with tanh the inverse is exact except within eps/2 of the width of the bounds, by which it may be off. False as stated for clipping with one bound: actions beyond max(bound, 1) are never given and not recovered (for all bounds). Exact arithmetic."
  },
  {
   "property": "C56",
   "status": "partial",
   "theorems": [
    "Verif.Props.Policy.default_partial",
    "Verif.Props.Policy.default_violation"
   ],
   "note": "False as stated: float actions with exactly one bound raise, with and without use_beta_distribution (for all bounds). Proved for all others."
  },
  {
   "property": "C57",
   "status": "partial",
   "theorems": [
    "Verif.Props.Distribution.probabilities",
    "Verif.Props.Distribution.masked_partial",
    "Verif.Props.Distribution.mode_partial",
    "Verif.Props.Distribution.bernoulli",
    "Verif.Props.Parameters.scale_positive",
    "Verif.Props.Parameters.scale_initial",
    "Verif.Props.Parameters.gumbel_mono"
   ],
   "note": "Proved over every ordered field with functions satisfying Laws, for all network outputs without a mask; with a mask the most probable action and the probability of masked values need network outputs of at least -10^30. Exact arithmetic."
  },
  {
   "property": "C58",
   "status": "partial",
   "theorems": [
    "Verif.Props.Distribution.kl_self_partial",
    "Verif.Props.Distribution.gaussian_violation",
    "Verif.Props.Distribution.entropy_partial",
    "Verif.Props.Distribution.bernoulli_entropy_partial",
    "Verif.Props.Distribution.entropy_at_most",
    "Verif.Props.Distribution.bernoulli_entropy_at_most",
    "Verif.Props.Distribution.entropy_violation",
    "Verif.Props.Distribution.kl_partial",
    "Verif.Props.Distribution.bernoulli_kl_partial",
    "Verif.Props.Distribution.gaussian_kl_partial",
    "Verif.Props.Parameters.categorical_expected",
    "Verif.Props.Parameters.bernoulli_expected",
    "Verif.Props.Parameters.gaussian_entropy_partial",
    "Verif.Props.Parameters.beta_entropy_partial",
    "Verif.Props.Parameters.beta_kl_partial"
   ],
   "note": "False as stated: a Gaussian has a negative divergence from itself (for all parameters), and an integer action with one value a negative entropy. Proved over the reals with the size of the deviation: entropy at least -1e-6 and at most log n, divergence at least -1e-6 per value, for Gaussians at least a multiple of -1e-6, zero for equal parameters except for Gaussians. Missing: the sign of the beta divergence."
  },
  {
   "property": "C59",
   "status": "partial",
   "theorems": [
    "Verif.Props.Value.greedy_partial",
    "Verif.Props.Value.ties",
    "Verif.Props.Value.state_value_partial",
    "Verif.Props.Value.dueling",
    "Verif.Props.Value.separate_violation",
    "Verif.Props.Value.per_action_violation",
    "Verif.Props.Value.per_action_vector",
    "Verif.Props.Parameters.value_order",
    "Verif.Props.Parameters.per_action_broadcast"
   ],
   "note": "Proved for the modes implicit and separate: greedy allowed actions (masked ones: values above the least float), the mean of the action values with a separate state value, and the state value in implicit mode. False as stated: with a separate state value the state value is the mean instead of the value of the action taken (for all unequal values), and separate-per-action gives action values of a wrong shape for scalar actions. Exact arithmetic."
  },
  {
   "property": "C60",
   "status": "partial",
   "theorems": [
    "Verif.Props.Density.gaussian_density_partial",
    "Verif.Props.Density.tanh_density_partial",
    "Verif.Props.Density.beta_density_partial",
    "Verif.Props.Parameters.gaussian_scale",
    "Verif.Props.Parameters.beta_parameters",
    "Verif.Props.Parameters.beta_order"
   ],
   "note": "Proved over the reals as equations with the logarithm of an explicit density, for all parameters which parametrize gives. Missing: that sampling has this density (see C69; the random number generators are taken to be normal and gamma distributed), actions clipped to bounds, rounding."
  },
  {
   "property": "C61",
   "status": "partial",
   "theorems": [
    "Verif.Props.Objective.value_loss_partial",
    "Verif.Props.Objective.value_tangent",
    "Verif.Props.Objective.value_gradient",
    "Verif.Props.Objective.threshold_violation",
    "Verif.Props.Objective.scalar_violation",
    "Verif.Props.Defaults.value_sum"
   ],
   "note": "Proved for every positive threshold and none: sign and zeros of the loss; the derivative over the reals for every threshold of at least 0. False as stated: the accepted threshold 0 makes every loss zero (for all instances), and per action the loss fails for scalar actions, since the values are concatenated without being reshaped (for all such instances). Exact arithmetic."
  },
  {
   "property": "C62",
   "status": "proved",
   "theorems": [
    "Verif.Props.Objective.clipped_ge",
    "Verif.Props.Objective.clipped_near",
    "Verif.Props.Objective.clipped_beyond",
    "Verif.Props.Objective.gradient_antitone",
    "Verif.Props.Objective.gradient_monotone",
    "Verif.Props.Objective.gradient_at_reference",
    "Verif.Props.Objective.ratio_loss",
    "Verif.Props.Defaults.leaf_loss"
   ],
   "note": "For every instance, over every ordered field with an exponential function satisfying ExpLaws (the real one does), the derivative over the reals; arithmetic is exact, as stated in the trusted base. The ratio of importance sampling is limited to [1e-6, 1e6], which the code comments on; the derivative is that of the loss of one log-probability, of which the loss is the sum."
  },
  {
   "property": "C63",
   "status": "proved",
   "theorems": [
    "Verif.Props.Objective.plus_reference_size",
    "Verif.Props.Objective.plus_loss"
   ],
   "note": "For every nesting, by induction; errors of single objectives are kept. Arithmetic is exact."
  },
  {
   "property": "C64",
   "status": "partial",
   "theorems": [
    "Verif.Props.Setup.calls_supported_partial",
    "Verif.Props.Setup.per_action_violation",
    "Verif.Props.Setup.no_baseline_violation",
    "Verif.Props.Setup.no_objective_violation",
    "Verif.Props.Setup.recurrent_violation",
    "Verif.Props.Defaults.calls_required"
   ],
   "note": "False as stated (witness theorems): value objectives per action call functions they do not ask for, a deterministic policy gradient without separate baseline calls None, a baseline optimizer or weight without baseline objective calls None, and an action-value baseline with internal states cannot compute them. Proved for all other configurations. Not covered: explicit policy types, summaries, and the divergence needed by natural-gradient optimizers."
  },
  {
   "property": "C65",
   "status": "partial",
   "theorems": [
    "Verif.Props.Setup.baseline_type_partial",
    "Verif.Props.Setup.baseline_type_violation"
   ],
   "note": "False as stated: without predictions the functions required of the policy are required of the baseline as well (witness theorem). Proved for all configurations with predictions."
  },
  {
   "property": "C66",
   "status": "partial",
   "theorems": [
    "Verif.Props.Session.run_defined",
    "Verif.Props.Session.run_valid",
    "Verif.Props.Session.counters",
    "Verif.Props.Session.reported",
    "Verif.Props.Session.statistics",
    "Verif.Props.Session.internals_partial",
    "Verif.Props.Session.separation_partial",
    "Verif.Props.Session.independent_unchanged",
    "Verif.Props.Session.independent_agrees_partial",
    "Verif.Props.Session.acted_partial",
    "Verif.Props.Session.variables",
    "Verif.Props.Session.repeated_violation"
   ],
   "note": "Proved for all networks and sequences of calls; the statements about internal states for calls of act in which no interaction occurs twice. False as stated otherwise: each row of a batch starts from the stored internal state, so one of two rows of an interaction is lost (witness theorem). Exact arithmetic."
  },
  {
   "property": "C67",
   "status": "partial",
   "theorems": [
    "Verif.Props.Session.reset_partial",
    "Verif.Props.Session.reset_violation"
   ],
   "note": "False as stated: Model.reset returns the counters only, so length, return and internal state of a running episode stay (witness theorem). Proved if no episode is running."
  },
  {
   "property": "C68",
   "status": "partial",
   "theorems": [
    "Verif.Props.Noise.noise_removed_partial",
    "Verif.Props.Noise.noise_drift_partial",
    "Verif.Props.Noise.noise_applied",
    "Verif.Props.Noise.noise_deterministic",
    "Verif.Props.Noise.noise_deterministic_removed",
    "Verif.Props.Noise.noise_zero",
    "Verif.Props.Noise.rounding_violation",
    "Verif.Props.Noise.exception_violation"
   ],
   "note": "Proved in exact arithmetic for acts which succeed, and for every rounding if deterministic or without noise. False as stated: in single precision small variables are lost, and after an exception the noise stays (witness theorems); the drift by rounding is bounded."
  },
  {
   "property": "C69",
   "status": "partial",
   "theorems": [
    "Verif.Props.Sampling.categorical_distribution_partial",
    "Verif.Props.Sampling.categorical_close_partial",
    "Verif.Props.Sampling.bernoulli_distribution_partial",
    "Verif.Props.Sampling.gaussian_distribution_partial",
    "Verif.Props.Sampling.gaussian_quadratic",
    "Verif.Props.Sampling.beta_centre"
   ],
   "note": "Proved with the measures of Mathlib, for independent random numbers uniform in [0, 1] or normally distributed: the probability of an integer action whose probabilities are all at least 1e-6 differs from the reported one by at most (2n + 30) 1e-6, of a boolean action by 40e-6, and float actions before the transformation to bounds are normally distributed. Missing: integer actions with values of probability below 1e-6, the interval [1e-6, 1 - 1e-6) of the random numbers, the transformation to bounds (see C60 for its density), and the beta distribution except for its centre. Exact arithmetic."
  },
  {
   "property": "C70",
   "status": "partial",
   "theorems": [
    "Verif.Props.Soft.bernoulli_soft",
    "Verif.Props.Soft.categorical_soft_partial",
    "Verif.Props.Soft.soft_maximum_partial",
    "Verif.Props.Soft.gaussian_soft_partial",
    "Verif.Props.Soft.mask_violation",
    "Verif.Props.Soft.tanh_violation"
   ],
   "note": "Proved for boolean actions, for integer actions without mask and for float actions without tanh. False as stated: with a mask the state value of an integer action counts the masked values, and with tanh the action value lacks the logarithm of its derivative (for all parameters). Exact arithmetic."
  },
  {
   "property": "C71",
   "status": "partial",
   "theorems": [
    "Verif.Props.Defaults.defaults_partial",
    "Verif.Props.Defaults.predictions_by",
    "Verif.Props.Defaults.rejected",
    "Verif.Props.Defaults.episode_violation"
   ],
   "note": "False as stated: with the horizon \"episode\" and a baseline, horizon values are predicted early by default (for all such configurations; late is rejected there). Proved for all other configurations. A setting given explicitly as None is not modelled."
  },
  {
   "property": "C72",
   "status": "proved",
   "theorems": [
    "Verif.Props.Defaults.simplest_type",
    "Verif.Props.Defaults.setup_types"
   ],
   "note": "For all lists of required functions and action types; which functions a type has is read off the classes."
  },
  {
   "property": "C73",
   "status": "partial",
   "theorems": [
    "Verif.Props.Gym.components_partial",
    "Verif.Props.Gym.exists_partial",
    "Verif.Props.Gym.typed",
    "Verif.Props.Gym.bounds_partial",
    "Verif.Props.Gym.allowed_partial",
    "Verif.Props.Gym.action_partial",
    "Verif.Props.Gym.collision_violation",
    "Verif.Props.Gym.type_violation",
    "Verif.Props.Gym.bound_violation",
    "Verif.Props.Gym.reject_violation"
   ],
   "note": "Proved for every nesting in which names of dictionaries have no underscore and are not \"type\": entries, names, types, shapes, bounds within the limits of the adapter, when there is a specification, and that elements are allowed; that nothing else is allowed for the action spaces of C74. False as stated (witness theorems): names with underscores collide, a nested name \"type\" fails, finite bounds beyond one million are dropped or rejected as infinite. Numbers are exact or infinite."
  },
  {
   "property": "C74",
   "status": "partial",
   "theorems": [
    "Verif.Props.Gym.action_partial",
    "Verif.Props.Gym.reached_partial",
    "Verif.Props.Gym.many_violation",
    "Verif.Props.Gym.nested_violation",
    "Verif.Props.Gym.underscore_violation",
    "Verif.Props.Gym.tuple_violation",
    "Verif.Props.Gym.range_violation"
   ],
   "note": "Proved for boxes with bounds within one million or infinite, discrete spaces, multi-discrete spaces with at most ten different numbers, nonempty tuples of such single components, and nested dictionaries of all these without underscores in names. False as stated for others (witness theorems)."
  },
  {
   "property": "C75",
   "status": "partial",
   "theorems": [
    "Verif.Props.Gym.observation_partial",
    "Verif.Props.Gym.nested_fails",
    "Verif.Props.Gym.masks_partial",
    "Verif.Props.Gym.unannounced_partial",
    "Verif.Props.Gym.finite",
    "Verif.Props.Gym.several_violation",
    "Verif.Props.Gym.numbers_violation",
    "Verif.Props.Gym.nested_observation_violation"
   ],
   "note": "Proved for single components and for tuples and dictionaries of these, also with masks. False as stated for all others without underscores in names: no element is ever converted to something which fits (nested_fails). The removal of the masks from the dictionary of the environment itself is not modelled."
  },
  {
   "property": "C76",
   "status": "partial",
   "theorems": [
    "Verif.Props.Gym.clipped_partial",
    "Verif.Props.Gym.dropped_partial",
    "Verif.Props.Gym.both_required",
    "Verif.Props.Gym.discrete_violation",
    "Verif.Props.Gym.dict_violation",
    "Verif.Props.Gym.bounds_violation",
    "Verif.Props.Gym.index_violation"
   ],
   "note": "Proved for boxes and all consistent bounds, and for distinct indices in range; that the rest fits, if the bounds are the same for all numbers. False as stated (witness theorems): clipping raises for discrete, tuple and dictionary observations, bounds per element keep their size when values are dropped, and invalid indices are accepted."
  },
  {
   "property": "C77",
   "status": "partial",
   "theorems": [
    "Verif.Props.GymLevel.codes_partial",
    "Verif.Props.GymLevel.tie_violation",
    "Verif.Props.GymLevel.instance_violation"
   ],
   "note": "Proved for all episodes of environments created by id, unless the environment terminates by itself exactly in the last timestep. False as stated in that case and for instances and classes, whose limit the adapter does not know (witness theorems). The wrapper of Gym is taken to end an episode at its limit."
  },
  {
   "property": "C78",
   "status": "partial",
   "theorems": [
    "Verif.Props.GymLevel.created_registered",
    "Verif.Props.GymLevel.created_version",
    "Verif.Props.GymLevel.missing",
    "Verif.Props.GymLevel.next_version",
    "Verif.Props.GymLevel.zero_first",
    "Verif.Props.GymLevel.reused_partial",
    "Verif.Props.GymLevel.reuse_violation"
   ],
   "note": "Proved for all registries whose ids have versions, as Gym requires. False as stated: a version without limit is not reused if none is requested (witness theorem). gym.register is taken to accept a new id; limit 0 is left out."
  },
  {
   "property": "C79",
   "status": "proved",
   "theorems": [
    "Verif.Props.Cart.physics",
    "Verif.Props.Cart.every_physics",
    "Verif.Props.Cart.num_actions",
    "Verif.Props.Cart.given_as_floats",
    "Verif.Props.Cart.discrete",
    "Verif.Props.Cart.continuous",
    "Verif.Props.Cart.determined"
   ],
   "note": "For every linearly ordered field with sine and cosine, in particular the reals; stated for one instance, parallel instances agree with single ones by C81. Rounding is left out."
  },
  {
   "property": "C80",
   "status": "partial",
   "theorems": [
    "Verif.Props.Cart.accepted_partial",
    "Verif.Props.Cart.rejected",
    "Verif.Props.Cart.positive_partial",
    "Verif.Props.Cart.heavy",
    "Verif.Props.Cart.angle_partial",
    "Verif.Props.Cart.heavy_violation",
    "Verif.Props.Cart.range_violation",
    "Verif.Props.Cart.negative_violation",
    "Verif.Props.Cart.velocity_violation"
   ],
   "note": "Proved: exactly which positive arguments are accepted, that all but the timestep must be positive, and the bound of the velocity of the angle. False as stated (witness theorems): heavy poles are rejected, a negative timestep may be accepted, and the bound of the velocity of the location is too small whenever the physics parameters are given as numbers (wrong sign in 107-109)."
  },
  {
   "property": "C81",
   "status": "proved",
   "theorems": [
    "Verif.Props.Cart.independent",
    "Verif.Props.Cart.returned",
    "Verif.Props.Cart.misfit"
   ],
   "note": "For all numbers of instances and steps and all actions of the right kind. All instances share the physics parameters, as the code draws them once. Rounding is left out; operations on arrays are modelled row by row."
  },
  {
   "property": "C82",
   "status": "partial",
   "theorems": [
    "Verif.Props.Cart.observed",
    "Verif.Props.Cart.initial_partial",
    "Verif.Props.Cart.continues",
    "Verif.Props.Cart.ends",
    "Verif.Props.Cart.visible",
    "Verif.Props.Cart.initial_violation"
   ],
   "note": "Proved for all steps, and for initial states if the initial maxima do not exceed the bounds, which the environment does not check (witness theorem). Rounding is left out, including that of the bounds to 32-bit floats."
  },
  {
   "property": "C83",
   "status": "partial",
   "theorems": [
    "Verif.Props.Cart.actions_partial",
    "Verif.Props.Cart.actions_violation"
   ],
   "note": "Proved unless float actions are given for parallel instances with action_continuous, where the code multiplies the array of the caller in place (witness theorem). Float actions for a single instance are taken to be numbers, not arrays without dimensions."
  },
  {
   "property": "C84",
   "status": "partial",
   "theorems": [
    "Verif.Props.Net.computes_partial",
    "Verif.Props.Net.result_partial",
    "Verif.Props.Net.sequential",
    "Verif.Props.Net.nested",
    "Verif.Props.Net.redefined_violation",
    "Verif.Props.Net.repeated_violation"
   ],
   "note": "Proved for all specifications of any number of networks in which no name of a reused layer is given again later. False as stated otherwise: the layer is looked up by name in the registry of all networks when it is applied, so that the layer of another network is used (witness theorems). Layers are given as functions."
  },
  {
   "property": "C85",
   "status": "partial",
   "theorems": [
    "Verif.Props.Net.announced_partial",
    "Verif.Props.Net.announced_violation"
   ],
   "note": "Proved for the same specifications, if layers compute what they announce. False as stated otherwise (witness theorem). Specifications are compared for equality, minimum and maximum values are left out."
  },
  {
   "property": "C86",
   "status": "partial",
   "theorems": [
    "Verif.Props.Net.internals_partial",
    "Verif.Props.Net.horizon_partial",
    "Verif.Props.Net.blocks_violation",
    "Verif.Props.Net.reused_violation"
   ],
   "note": "Proved whenever the internal states can be asked for. False as stated: two temporal layers with the same name, as two blocks with a temporal layer each get by default, or a temporal layer used twice, make the network fail (witness theorems)."
  },
  {
   "property": "C87",
   "status": "partial",
   "theorems": [
    "Verif.Props.Net.rows_partial",
    "Verif.Props.Net.network_rows_partial",
    "Verif.Props.Net.successive",
    "Verif.Props.Net.rows_violation"
   ],
   "note": "Proved for all sequences of layers in which no tensor is retrieved after a temporal layer. False as stated otherwise: retrieved tensors keep the rows of the past horizon (witness theorem)."
  },
  {
   "property": "C88",
   "status": "partial",
   "theorems": [
    "Verif.Props.Net.registered_kept",
    "Verif.Props.Net.retrieved",
    "Verif.Props.Net.inputs_retrieved",
    "Verif.Props.Net.unregistered",
    "Verif.Props.Net.twice",
    "Verif.Props.Net.several_violation"
   ],
   "note": "Proved for all sequences of layers. False as stated: with several inputs the first layer may be any layer, which gets the first input (witness theorem)."
  },
  {
   "property": "C89",
   "status": "partial",
   "theorems": [
    "Verif.Props.Net.outputs_partial",
    "Verif.Props.Net.outputs_announced",
    "Verif.Props.Net.outputs_asked",
    "Verif.Props.Net.outputs_missing_violation",
    "Verif.Props.Net.outputs_violation"
   ],
   "note": "Proved for networks which have outputs. False as stated: LayerbasedNetwork does not pass the argument on, so that no layered network has outputs, and the documented example uses the final output for both actions (witness theorem)."
  },
  {
   "property": "C90",
   "status": "partial",
   "theorems": [
    "Verif.Props.Auto.single",
    "Verif.Props.Auto.several_partial",
    "Verif.Props.Auto.unsupported",
    "Verif.Props.Auto.depth",
    "Verif.Props.Auto.final",
    "Verif.Props.Auto.arguments",
    "Verif.Props.Auto.clash_violation"
   ],
   "note": "Proved for all supported states, sizes and depths of at least one, unless one state is called like another one with the suffix -embedding: then the network cannot be built (witness theorem). The specifications announced by the layers are those of the model of C43, except for embedding and lstm."
  },
  {
   "property": "C91",
   "status": "partial",
   "theorems": [
    "Verif.Props.Net.preprocess_partial",
    "Verif.Props.Net.temporal_rejected",
    "Verif.Props.Net.block_violation",
    "Verif.Props.Net.input_violation",
    "Verif.Props.Build.preprocessing_accepted_partial"
   ],
   "note": "Proved: which specifications without reused layers are accepted. That they can be applied is proved for lists of layers, nested or not, without blocks and reused layers and not retrieving the input. False as stated otherwise: these are accepted but cannot be applied, and the layers of a block are not reset (witness theorems)."
  },
  {
   "property": "C92",
   "status": "partial",
   "theorems": [
    "Verif.Props.Build.accepted_partial",
    "Verif.Props.Build.reuse",
    "Verif.Props.Build.reuse_inner",
    "Verif.Props.Build.reuse_itself",
    "Verif.Props.Build.reuse_network",
    "Verif.Props.Build.reuse_rejected",
    "Verif.Props.Build.names",
    "Verif.Props.Build.names_different",
    "Verif.Props.Build.objects",
    "Verif.Props.Build.same_name_violation"
   ],
   "note": "Proved, as equivalence, for all specifications without reused layers, and separately when a layer can be reused. False as stated: two layers of a network may have the same name, since names are compared only within blocks (witness theorem). Default names are different if no type ends with a digit, as is the case for all layers."
  },
  {
   "property": "C93",
   "status": "partial",
   "theorems": [
    "Verif.Props.Resolve.sound_partial",
    "Verif.Props.Resolve.complete_partial",
    "Verif.Props.Resolve.means_unique",
    "Verif.Props.Resolve.same_forms",
    "Verif.Props.Resolve.shadow_violation",
    "Verif.Props.Resolve.shadow_default_violation",
    "Verif.Props.Resolve.path_violation",
    "Verif.Props.Resolve.network_value_violation",
    "Verif.Props.Resolve.layer_class_violation"
   ],
   "note": "Proved for modules other than layered networks, all specifications, files and imports, unless a file is named like the keyword of the default and, for acceptance, unless the first registered module is no class. False as stated (witness theorems): a file hides a keyword, paths and unknown strings are always rejected for objectives, layered networks reject every value given as first argument and take a class for a function. Changes of nested dictionaries of the caller in place are not modelled."
  },
  {
   "property": "C94",
   "status": "partial",
   "theorems": [
    "Verif.Props.Resolve.path_sound",
    "Verif.Props.Resolve.path_class",
    "Verif.Props.Resolve.path_module_partial",
    "Verif.Props.Resolve.path_unambiguous",
    "Verif.Props.Resolve.alias_violation",
    "Verif.Props.Resolve.base_violation"
   ],
   "note": "Proved for all libraries: a found class is where the path says and of the right kind, and is found unless the module contains other classes of the kind. False as stated (witness theorems): a class with two names is not found, and a module importing a base class of its class is rejected if it also imports the kind itself."
  },
  {
   "property": "C95",
   "status": "partial",
   "theorems": [
    "Verif.Props.Train.contained",
    "Verif.Props.Train.fails",
    "Verif.Props.Train.policy_trained",
    "Verif.Props.Train.baseline_optimizer",
    "Verif.Props.Train.baseline_main_partial",
    "Verif.Props.Train.only_partial",
    "Verif.Props.Train.order",
    "Verif.Props.Train.order_joint",
    "Verif.Props.Train.weighted_violation",
    "Verif.Props.Train.unused_violation",
    "Verif.Props.Train.others_violation",
    "Verif.Props.Train.parameter_violation"
   ],
   "note": "Proved for all configurations: when an update fails, that the policy is trained, the optimizer of the baseline and the order. False as stated (witness theorems, for all such configurations): a separate baseline whose loss is part of the main loss, with a weight or without optimizer, is never trained; neither is one without objective if advantages are switched off; with the advantage in the loss, variables of modules which are not trainable are optimised too; a weight which is no number is rejected."
  },
  {
   "property": "C96",
   "status": "partial",
   "theorems": [
    "Verif.Props.Train.main_loss_partial",
    "Verif.Props.Train.baseline_loss",
    "Verif.Props.Train.regularized_partial",
    "Verif.Props.Train.twice_violation",
    "Verif.Props.Train.keras_violation"
   ],
   "note": "Proved for all trees of modules and all configurations except those of twice_violation, where the variables of the baseline count twice. Variables of recurrent layers and Keras networks are not regularized (keras_violation). Numbers are elements of a commutative ring."
  },
  {
   "property": "C97",
   "status": "partial",
   "theorems": [
    "Verif.Props.Summary.first_partial",
    "Verif.Props.Summary.increasing",
    "Verif.Props.Summary.labels",
    "Verif.Props.Summary.asked",
    "Verif.Props.Summary.registered",
    "Verif.Props.Summary.restored_violation"
   ],
   "note": "Proved for all sequences of calls with counters which do not decrease. False as stated when an earlier state is restored: then nothing is written until the counter is larger than ever (witness theorem). What TensorFlow writes is a list of entries; the model knows one module at a time."
  },
  {
   "property": "C98",
   "status": "partial",
   "theorems": [
    "Verif.Props.Summary.tracked_partial",
    "Verif.Props.Summary.tracked_labels",
    "Verif.Props.Summary.never_violation"
   ],
   "note": "Proved for values which are computed. False as stated: the entropy of a policy which is not stochastic is registered and returned as zero though never computed (witness theorem, for all such configurations). Names of modules which contain each other are assumed not to be confused."
  },
  {
   "property": "C99",
   "status": "partial",
   "theorems": [
    "Verif.Props.Summary.tracking_registered",
    "Verif.Props.Summary.summaries_registered_partial",
    "Verif.Props.Summary.advantage_violation"
   ],
   "note": "Proved for the names of the model itself, all configurations and labels, for tracking; for summaries unless the advantage is estimated within the loss and the label reward is asked for, where computing the loss raises an exception (witness theorem, for all such configurations). Names registered by optimizers and distributions are not modelled."
  },
  {
   "property": "C100",
   "status": "partial",
   "theorems": [
    "Verif.Props.Summary.rotate_partial",
    "Verif.Props.Summary.given_name",
    "Verif.Props.Summary.oldest_first",
    "Verif.Props.Summary.named_violation",
    "Verif.Props.Summary.files_violation"
   ],
   "note": "Proved for all directories as to which summaries are removed. False as stated: a summary with a given file name which starts like a generic one is removed, and one with no or several files cannot be removed and raises an exception (witness theorems). Times are six numbers; the local clock may go back."
  },
  {
   "property": "C101",
   "status": "partial",
   "theorems": [
    "Verif.Props.Family.loaded_partial",
    "Verif.Props.Family.limit_used",
    "Verif.Props.Family.double_violation",
    "Verif.Props.Family.reward_violation",
    "Verif.Props.Family.trpo_violation",
    "Verif.Props.Family.encodable_violation"
   ],
   "note": "Proved for all classes and arguments except those of the witnesses. False as stated (witness theorems): Double DQN agents are loaded as DQN agents, the reward processing of all classes with fixed algorithm and line search iterations and subsampling fraction of TRPO agents are not saved, and an agent with arguments which JSON cannot encode cannot be loaded. Restoring variables is not part of this."
  },
  {
   "property": "C102",
   "status": "partial",
   "theorems": [
    "Verif.Props.Family.placed_partial",
    "Verif.Props.Family.simple_placed",
    "Verif.Props.Family.base_placed",
    "Verif.Props.Family.config_placed",
    "Verif.Props.Family.critic_violation",
    "Verif.Props.Family.timesteps_violation"
   ],
   "note": "Proved for all classes and arguments; partial because two documented defaults are not those of the code (witness theorems). Positional arguments are left out, and the models are not built here."
  },
  {
   "property": "C103",
   "status": "partial",
   "theorems": [
    "Verif.Props.Family.known",
    "Verif.Props.Family.used_partial",
    "Verif.Props.Family.advantage_violation"
   ],
   "note": "Proved for all classes with fixed algorithm, without the configuration. False as stated: the advantage processing of A2C agents, and of VPG, TRPO and PPO agents without baseline, has no effect (witness theorem, for all such agents)."
  },
  {
   "property": "C104",
   "status": "partial",
   "theorems": [
    "Verif.Props.FamilyAccept.accepted_partial",
    "Verif.Props.FamilyAccept.baseline_violation",
    "Verif.Props.FamilyAccept.terminal_violation",
    "Verif.Props.FamilyAccept.labels_violation"
   ],
   "note": "Proved for all classes with fixed algorithm and all documented arguments, up to the construction of the model, except those of the witnesses, for configurations without buffer_observe. False as stated (witness theorems): a baseline without optimizer is rejected although the main optimizer should be used, so are predicted terminal values without baseline and paths of summaries containing the word labels."
  },
  {
   "property": "C105",
   "status": "partial",
   "theorems": [
    "Verif.Props.FamilyAccept.buffer_partial",
    "Verif.Props.FamilyAccept.episodes",
    "Verif.Props.FamilyAccept.given_accepted",
    "Verif.Props.FamilyAccept.unlimited_rejected",
    "Verif.Props.FamilyAccept.relative_violation",
    "Verif.Props.FamilyAccept.parallel_violation",
    "Verif.Props.FamilyAccept.key_violation"
   ],
   "note": "Proved for one environment and a constant number of timesteps between updates. False as stated (witness theorems): with a relative frequency or several environments any number is accepted, and updates without unit or batch size raise a KeyError."
  },
  {
   "property": "C106",
   "status": "partial",
   "theorems": [
    "Verif.Props.Choice.preprocessing_partial",
    "Verif.Props.Choice.default_preprocessing",
    "Verif.Props.Choice.layer_dictionary",
    "Verif.Props.Choice.through_rejected",
    "Verif.Props.Choice.exploration_partial",
    "Verif.Props.Choice.exploration_global",
    "Verif.Props.Choice.exploration_dictionary",
    "Verif.Props.Choice.exploration_constant",
    "Verif.Props.Choice.exploration_default",
    "Verif.Props.Choice.types_violation",
    "Verif.Props.Choice.types_differ_violation",
    "Verif.Props.Choice.group_violation",
    "Verif.Props.Choice.exploration_types_violation",
    "Verif.Props.Choice.probability_violation"
   ],
   "note": "Proved for all states, actions and arguments whose keys are names. False as stated (witness theorems): with a type as key the whole dictionary is used as a layer for every state, or as a parameter, which fails, for exploration; preprocessing for a group of states is ignored; a global probability above one is accepted. Layers are not built here, parameters are known by their bounds."
  },
  {
   "property": "C107",
   "status": "partial",
   "theorems": [
    "Verif.Props.UpdateConfig.schedule",
    "Verif.Props.UpdateConfig.frequency_bounds",
    "Verif.Props.UpdateConfig.default_frequency",
    "Verif.Props.UpdateConfig.relative_frequency",
    "Verif.Props.UpdateConfig.first_update",
    "Verif.Props.UpdateConfig.documented_accepted_partial",
    "Verif.Props.UpdateConfig.never_violation",
    "Verif.Props.UpdateConfig.large_frequency_violation",
    "Verif.Props.UpdateConfig.relative_violation",
    "Verif.Props.UpdateConfig.unbounded_violation",
    "Verif.Props.UpdateConfig.start_violation"
   ],
   "note": "Proved for all configurations which of them are accepted and which schedule they stand for. False as stated (witness theorems): with frequency never the agent cannot be initialized, constant frequencies above the batch size are rejected, relative frequencies with a batch size which is no number and batch sizes without upper bound raise a TypeError, and a start below the batch size is accepted. Floats are rationals."
  },
  {
   "property": "C108",
   "status": "partial",
   "theorems": [
    "Verif.Props.Capacity.capacity_timesteps",
    "Verif.Props.Capacity.capacity_episodes_partial",
    "Verif.Props.Capacity.timesteps_retrieved_partial",
    "Verif.Props.Capacity.episodes_retrieved",
    "Verif.Props.Capacity.small_violation",
    "Verif.Props.Capacity.small_capacity_violation",
    "Verif.Props.Capacity.unlimited_violation",
    "Verif.Props.Capacity.horizon_violation"
   ],
   "note": "Proved for all needs and, on the memory model, for all histories with recent memory, under the condition of C03 for timesteps. False as stated for unlimited episodes (witness theorems): a default capacity of two for any batch, or a TypeError for every given capacity."
  },
  {
   "property": "C109",
   "status": "partial",
   "theorems": [
    "Verif.Props.Horizon.horizon",
    "Verif.Props.Horizon.horizon_limit",
    "Verif.Props.Horizon.documented_accepted_partial",
    "Verif.Props.Horizon.long_violation",
    "Verif.Props.Horizon.unlimited_parameter_violation",
    "Verif.Props.Horizon.default_memory"
   ],
   "note": "Proved for all specifications which are accepted, and that a default memory exists. False as stated (witness theorems): documented horizons above the maximum number of timesteps of episodes, and horizon parameters without upper bound, are rejected. Parameters other than constants are known by their bounds."
  },
  {
   "property": "C110",
   "status": "partial",
   "theorems": [
    "Verif.Props.Convert.accepted_partial",
    "Verif.Props.Convert.unchanged_partial",
    "Verif.Props.Convert.round_trip",
    "Verif.Props.Convert.returned",
    "Verif.Props.Convert.incomplete_rejected",
    "Verif.Props.Convert.together_partial",
    "Verif.Props.Convert.names_rejected",
    "Verif.Props.Convert.recovered",
    "Verif.Props.Convert.contents",
    "Verif.Props.Convert.column_violation",
    "Verif.Props.Convert.surplus_violation",
    "Verif.Props.Convert.type_violation",
    "Verif.Props.Convert.nan_violation",
    "Verif.Props.Convert.bool_violation",
    "Verif.Props.Convert.prefix_violation",
    "Verif.Props.Convert.prefix_error_violation",
    "Verif.Props.Convert.scalar_violation"
   ],
   "note": "Proved for all arrays whose type fits and bounds which are numbers, given for every entry or for leading dimensions of size one. False as stated (witness theorems): values of any type are converted silently, bounds for leading dimensions are compared with trailing ones, a number passes as a batch, unknown internal states are ignored. Numbers are rationals, not 32 bit floats."
  },
  {
   "property": "C111",
   "status": "partial",
   "theorems": [
    "Verif.Props.Output.element_accepted",
    "Verif.Props.Output.passes",
    "Verif.Props.Output.accepted_type_partial",
    "Verif.Props.Output.elements_accepted_partial",
    "Verif.Props.Output.missing_rejected",
    "Verif.Props.Output.range_violation",
    "Verif.Props.Output.integer_violation",
    "Verif.Props.Output.vectorized_violation"
   ],
   "note": "Proved for all outputs which of them pass, and that every element of the space does in the single case. False as stated (witness theorems): ranges are not checked, arrays of floats pass for integers, and vectorized environments with several states are always rejected."
  },
  {
   "property": "C112",
   "status": "partial",
   "theorems": [
    "Verif.Props.SpecSave.values_accepted",
    "Verif.Props.SpecSave.numbers_accepted_partial",
    "Verif.Props.SpecSave.arrays_accepted_partial",
    "Verif.Props.SpecSave.bounds_kept_partial",
    "Verif.Props.SpecSave.bounds_shape",
    "Verif.Props.SpecSave.saved",
    "Verif.Props.SpecSave.copied_partial",
    "Verif.Props.SpecSave.truncated_violation",
    "Verif.Props.SpecSave.equal_violation",
    "Verif.Props.SpecSave.close_violation",
    "Verif.Props.SpecSave.copy_violation",
    "Verif.Props.SpecSave.mixed_violation"
   ],
   "note": "Saving is proved without restriction. False as stated (witness theorems): fractional parts of bounds of integers are dropped, equal or close bounds are rejected, a list with one entry becomes a number in a copy, and bounds of different rank cannot be compared. Types and shapes are fully given."
  },
  {
   "property": "C113",
   "status": "partial",
   "theorems": [
    "Verif.Props.Forms.list_form",
    "Verif.Props.Forms.dict_form",
    "Verif.Props.Forms.single_form",
    "Verif.Props.Forms.forms_agree",
    "Verif.Props.Forms.array_form",
    "Verif.Props.Forms.consistent",
    "Verif.Props.Forms.nonempty_partial",
    "Verif.Props.Forms.surplus_violation",
    "Verif.Props.Forms.empty_violation",
    "Verif.Props.FeedReject.array_accepted",
    "Verif.Props.FeedReject.dict_accepted",
    "Verif.Props.FeedReject.list_accepted",
    "Verif.Props.FeedReject.empty_rejected"
   ],
   "note": "Proved for all forms and values. False as stated (witness theorems): states which the first of a list of dictionaries lacks are dropped silently, and an array of no time steps is accepted for a single unnamed state."
  },
  {
   "property": "C114",
   "status": "partial",
   "theorems": [
    "Verif.Props.Experience.fed_partial",
    "Verif.Props.Experience.whole_episodes",
    "Verif.Props.Experience.incomplete_rejected",
    "Verif.Props.Experience.mid_rejected",
    "Verif.Props.Experience.aligned",
    "Verif.Props.Experience.forms_agree",
    "Verif.Props.Experience.mask_given",
    "Verif.Props.Experience.mask_default",
    "Verif.Props.Experience.internals_violation",
    "Verif.Props.Experience.single_internals_violation",
    "Verif.Props.Experience.number_violation",
    "Verif.Props.Experience.mixed_violation",
    "Verif.Props.Experience.called_violation",
    "Verif.Props.Experience.atomic_violation",
    "Verif.Props.Masks.masked_partial",
    "Verif.Props.Masks.internals_partial",
    "Verif.Props.FeedReject.numbers",
    "Verif.Props.FeedReject.nothing_rejected",
    "Verif.Props.FeedReject.lists_rejected",
    "Verif.Props.FeedReject.unknown_rejected",
    "Verif.Props.FeedReject.conform"
   ],
   "note": "Proved for traces of any length, masks for any number of actions and internal states given by name; names have the order of the specification, and lists of internal states are left out. False as stated (witness theorems): internal states cannot be left out with a dictionary of states or a single time step, a number as action of a single time step, an array of states with a dictionary of actions and an action named action are rejected, and episodes before an invalid one have been passed on already. Checks on values are a predicate."
  },
  {
   "property": "C115",
   "status": "partial",
   "theorems": [
    "Verif.Props.Pretrain.pretrain_partial",
    "Verif.Props.Pretrain.distinct",
    "Verif.Props.Pretrain.recorded",
    "Verif.Props.Pretrain.nothing_violation",
    "Verif.Props.Pretrain.record_violation",
    "Verif.Props.Pretrain.masks_violation",
    "Verif.Props.Pretrain.actions_violation",
    "Verif.Props.Pretrain.internals_violation",
    "Verif.Props.Masks.pretrained",
    "Verif.Props.Masks.pretrain_violation"
   ],
   "note": "Proved for all agents without masks (and for a single trace with masks of an agent with named states), with internal states only for a single unnamed state, all traces, orders and numbers. False as stated (witness theorems): masks are not recorded, or recording fails; traces of agents with an unnamed state and several actions, or with named states and internal states, are rejected; without files there is an AttributeError."
  },
  {
   "property": "C116",
   "status": "partial",
   "theorems": [
    "Verif.Props.Act.independent_partial",
    "Verif.Props.Act.training_partial",
    "Verif.Props.Act.conform",
    "Verif.Props.Act.clash_violation",
    "Verif.Props.ActOutput.returned_rows",
    "Verif.Props.ActOutput.masks_conform"
   ],
   "note": "Proved for all agents without a state called like a mask, all policies which answer as specified, all forms and masks; names have the order of the specification. False as stated: states called like a mask are always rejected (witness theorem). The policy is a function; checks on values are a predicate."
  },
  {
   "property": "C117",
   "status": "partial",
   "theorems": [
    "Verif.Props.ActInternals.passed_partial",
    "Verif.Props.ActInternals.again_partial",
    "Verif.Props.ActInternals.initial_partial",
    "Verif.Props.ActInternals.required",
    "Verif.Props.ActInternals.refused",
    "Verif.Props.ActInternals.none_returned",
    "Verif.Props.ActInternals.mixed_violation",
    "Verif.Props.ActInternals.surplus_violation",
    "Verif.Props.ActOutput.internals_conform",
    "Verif.Props.ActOutput.internals_other",
    "Verif.Props.ActOutput.internals_mixed",
    "Verif.Props.ActOutput.internals_number"
   ],
   "note": "Proved for internal states given in the form of the states. False as stated (witness theorems): a list of internal states given with a dictionary of arrays comes back as a dictionary, and unknown names are ignored silently. Agents without internal states accept any."
  },
  {
   "property": "C118",
   "status": "partial",
   "theorems": [
    "Verif.Props.ActParallel.accepted_partial",
    "Verif.Props.ActParallel.waiting_rejected",
    "Verif.Props.ActParallel.range_rejected",
    "Verif.Props.ActParallel.length_rejected",
    "Verif.Props.ActParallel.default_violation",
    "Verif.Props.ActParallel.negative_violation",
    "Verif.Props.ActParallel.list_violation",
    "Verif.Props.ActParallel.independent_untouched",
    "Verif.Props.ActParallel.independent_index",
    "Verif.Props.ActOutput.empty_rejected"
   ],
   "note": "Proved for all interactions and indices. False as stated (witness theorems, for all such calls): several time steps with the default index are rejected, and a negative index or a list of indices with a single time step is rejected only after the interaction was marked, so it waits for observe."
  },
  {
   "property": "C119",
   "status": "partial",
   "theorems": [
    "Verif.Props.Linear.accepted_partial",
    "Verif.Props.Linear.mapped",
    "Verif.Props.Linear.bounds_used",
    "Verif.Props.Linear.contained_used",
    "Verif.Props.Linear.contained_partial",
    "Verif.Props.Linear.required",
    "Verif.Props.Linear.negative_violation",
    "Verif.Props.Linear.narrow_violation",
    "Verif.Props.Linear.order_violation",
    "Verif.Props.LinearBounds.unified",
    "Verif.Props.LinearBounds.accepted_both",
    "Verif.Props.LinearBounds.rejected_both",
    "Verif.Props.LinearBounds.rejected_errors"
   ],
   "note": "Proved for all bounds and values over ordered fields (no rounding). False as stated (witness theorems): states whose upper bound is below -2 raise an error because the new lower bound is compared with the old upper bound, given bounds narrower than those of the states lead to values outside of the announced range, and bounds in the wrong order raise a TypeError. Accepted bounds are at least epsilon apart."
  },
  {
   "property": "C120",
   "status": "partial",
   "theorems": [
    "Verif.Props.Moving.initial_values",
    "Verif.Props.Moving.batch_mean",
    "Verif.Props.Moving.batch_variance",
    "Verif.Props.Moving.steps_mean",
    "Verif.Props.Moving.steps_variance",
    "Verif.Props.Moving.batching_partial",
    "Verif.Props.Moving.unchanged",
    "Verif.Props.Moving.mean_range",
    "Verif.Props.Moving.variance_nonneg",
    "Verif.Props.Moving.output",
    "Verif.Props.Moving.output_shape",
    "Verif.Props.Moving.batching_violation",
    "Verif.Props.Moving.variance_violation"
   ],
   "note": "Exact formulas proved for all shapes, axes, decays and batches over ordered fields (no rounding; the reciprocal square root is characterised by its equation). False as stated (witness theorems): a batch changes the mean otherwise than its time steps one by one, unless these are alike, and without normalized axes single time steps never contribute to the variance, which vanishes whatever the values are."
  },
  {
   "property": "C121",
   "status": "proved",
   "theorems": [
    "Verif.Props.Normal.batch_shape",
    "Verif.Props.Normal.batch_centered",
    "Verif.Props.Normal.batch_variance",
    "Verif.Props.Normal.batch_unit",
    "Verif.Props.Normal.batch_bounded",
    "Verif.Props.Normal.batch_order",
    "Verif.Props.Normal.batch_differences",
    "Verif.Props.Normal.instance_shape",
    "Verif.Props.Normal.instance_row",
    "Verif.Props.Normal.instance_centered",
    "Verif.Props.Normal.instance_variance",
    "Verif.Props.Normal.instance_order",
    "Verif.Props.Normal.alone",
    "Verif.Props.LinearBounds.default_axes"
   ],
   "note": "All clauses, for all shapes, axes and batches, over ordered fields (no rounding; the reciprocal square root is characterised by its equation)."
  },
  {
   "property": "C122",
   "status": "partial",
   "theorems": [
    "Verif.Props.Clipping.clip_defined",
    "Verif.Props.Clipping.clip_value",
    "Verif.Props.Clipping.clip_row",
    "Verif.Props.Clipping.clip_accepts",
    "Verif.Props.Clipping.clip_contained_partial",
    "Verif.Props.Clipping.clip_violation",
    "Verif.Props.Clipping.normalized_violation"
   ],
   "note": "Clipping itself is proved for all bounds and values (assertions switched on, as by default). False as stated (witness theorems): the layers announce the range of their input, which does not contain the values if a clipping bound is outside of it, or after normalization."
  },
  {
   "property": "C123",
   "status": "partial",
   "theorems": [
    "Verif.Props.Random.created_uniform",
    "Verif.Props.Random.created_normal",
    "Verif.Props.Random.valid",
    "Verif.Props.Random.never_bounds",
    "Verif.Props.Random.works_partial",
    "Verif.Props.Random.covers",
    "Verif.Props.Random.normal_value",
    "Verif.Props.Random.final_range",
    "Verif.Props.Random.final_normal",
    "Verif.Props.Random.constant",
    "Verif.Props.Random.default_violation",
    "Verif.Props.Random.equal_violation",
    "Verif.Props.Random.normal_violation",
    "Verif.Props.Random.name_violation"
   ],
   "note": "Acceptance, range, attained values, final value and constancy are proved for all arguments over the rationals (no rounding). False as stated (witness theorems): uniform integers without upper bound or with equal bounds and normal integers are accepted, but every draw raises an error; misspelt arguments are ignored."
  },
  {
   "property": "C124",
   "status": "partial",
   "theorems": [
    "Verif.Props.Process.default_values",
    "Verif.Props.Process.created",
    "Verif.Props.Process.values_valid",
    "Verif.Props.Process.formula",
    "Verif.Props.Process.continued",
    "Verif.Props.Process.absolute_step",
    "Verif.Props.Process.value_state",
    "Verif.Props.Process.quiet",
    "Verif.Props.Process.bounded",
    "Verif.Props.Process.default_bounded",
    "Verif.Props.Process.final_partial",
    "Verif.Props.Process.final_violation",
    "Verif.Props.Process.theta_violation"
   ],
   "note": "Proved for all parameters and noise over the rationals (no rounding); the bound needs theta between 0 and 1. False as stated (witness theorems): theta and sigma are not checked, so that the process may run away from its mean, and absolute processes with negative mean announce a final value below their minimum."
  },
  {
   "property": "C125",
   "status": "partial",
   "theorems": [
    "Verif.Props.Constant.actions_kept",
    "Verif.Props.Constant.accepted_partial",
    "Verif.Props.Constant.given_returned",
    "Verif.Props.Constant.out_of_space",
    "Verif.Props.Constant.unconvertible",
    "Verif.Props.Constant.default_returned",
    "Verif.Props.Constant.first_allowed",
    "Verif.Props.Constant.none_allowed",
    "Verif.Props.Constant.last_none_allowed",
    "Verif.Props.Constant.unchecked",
    "Verif.Props.Constant.between_violation",
    "Verif.Props.Constant.returned_valid",
    "Verif.Props.Constant.documented_partial",
    "Verif.Props.Constant.middle_violation",
    "Verif.Props.Constant.int_violation",
    "Verif.Props.Constant.key_violation",
    "Verif.Props.Constant.array_violation",
    "Verif.Props.Constant.upper_array_violation",
    "Verif.Props.Constant.unknown_violation",
    "Verif.Props.Constant.fraction_violation",
    "Verif.Props.Constant.mask_violation"
   ],
   "note": "Proved for all actions with single bounds. False as stated (witness theorems): the default of bounded actions is the middle of the bounds; integer actions with bounds but without mask, without number of values, and actions with arrays as bounds raise an error at creation; values for unknown actions are ignored and fractions cut off; a given value which the mask does not allow is returned by independent acting and raises an error otherwise."
  },
  {
   "property": "C126",
   "status": "partial",
   "theorems": [
    "Verif.Props.ObserveForms.meaning",
    "Verif.Props.ObserveForms.single_list",
    "Verif.Props.ObserveForms.lengths",
    "Verif.Props.ObserveForms.refused_unchanged",
    "Verif.Props.ObserveForms.zero_violation",
    "Verif.Props.ObserveForms.numpy_violation",
    "Verif.Props.ObserveForms.index_violation",
    "Verif.Props.ObserveForms.assertion_violation",
    "Verif.Props.ObserveForms.terminals_violation"
   ],
   "note": "Proved for all arguments: a call is accepted exactly if it has a meaning, and is understood as meant. False as stated (witness theorems): 0 or the NumPy value false as terminal, documented like false, is refused with several rewards; several rewards for a single interaction other than 0 raise an IndexError and rewards for other than all interactions an AssertionError instead of a TensorforceError. Arguments with two dimensions and types of arrays are simplified."
  },
  {
   "property": "C127",
   "status": "partial",
   "theorems": [
    "Verif.Props.ObserveState.accepted",
    "Verif.Props.ObserveState.received",
    "Verif.Props.ObserveState.counted",
    "Verif.Props.ObserveState.sent_acceptable",
    "Verif.Props.ObserveState.prompt",
    "Verif.Props.ObserveState.initial",
    "Verif.Props.ObserveState.acted",
    "Verif.Props.ObserveState.not_waiting",
    "Verif.Props.ObserveState.negative_not_waiting",
    "Verif.Props.ObserveState.not_existing",
    "Verif.Props.ObserveState.too_long",
    "Verif.Props.ObserveState.unchanged_partial",
    "Verif.Props.ObserveState.long_violation",
    "Verif.Props.ObserveState.code_violation",
    "Verif.Props.ObserveState.negative_violation",
    "Verif.Props.ObserveState.repeated_violation"
   ],
   "note": "Proved for all histories. False as stated (witness theorems): an episode which is too long, an invalid terminal or the end of the episode of a negative interaction raise an exception, but the rewards waiting are lost or the time step is counted; an interaction given twice is accepted. Model.observe itself is not part of the model, its assertions are."
  },
  {
   "property": "C128",
   "status": "partial",
   "theorems": [
    "Verif.Props.OptWrap.nested",
    "Verif.Props.OptWrap.accepted",
    "Verif.Props.OptWrap.accepted_names",
    "Verif.Props.OptWrap.rejected_partial",
    "Verif.Props.OptWrap.rate_rejected_partial",
    "Verif.Props.OptWrap.unknown",
    "Verif.Props.OptWrap.unrated_violation",
    "Verif.Props.OptWrap.rate_ignored_violation",
    "Verif.Props.OptWrap.incomplete",
    "Verif.Props.OptWrap.default_accepted",
    "Verif.Props.OptWrap.changed_violation",
    "Verif.Props.OptWrap.shared_violation",
    "Verif.Props.OptWrap.range_violation"
   ],
   "note": "Order, number and values of the modifications and the arguments of the innermost optimizer are proved for all documented values. False as stated (witness theorems): update modifiers, sums and synchronization cannot be wrapped, since a learning rate is always passed; the argument learning_rate is ignored if the dictionary has one, and the dictionary of the user is changed, so that a second wrapper of it keeps the learning rate of the first; numbers of steps below 1, negative numbers of iterations, and 0 as threshold, fraction or learning rate are accepted. Nested optimizers within the specification are not modelled."
  },
  {
   "property": "C129",
   "status": "partial",
   "theorems": [
    "Verif.Props.Gradient.assertion",
    "Verif.Props.Gradient.unclipped",
    "Verif.Props.Gradient.clipped",
    "Verif.Props.Gradient.clipped_accepted",
    "Verif.Props.Gradient.global_step",
    "Verif.Props.Gradient.norm_step",
    "Verif.Props.Gradient.value_step",
    "Verif.Props.Gradient.step_accepted",
    "Verif.Props.Gradient.zero_accepted",
    "Verif.Props.Gradient.step_zero_accepted",
    "Verif.Props.Gradient.zero_violation",
    "Verif.Props.Gradient.step_zero_violation",
    "Verif.Props.Gradient.default_violation"
   ],
   "note": "Proved over ordered fields (no rounding; the square root is characterised by its equation) with the formulas of TensorFlow. False as stated (witness theorems): with threshold 0, which is accepted, gradients or updates 0 become NaN; by default gradients are not clipped although the documentation says 1.0."
  },
  {
   "property": "C130",
   "status": "partial",
   "theorems": [
    "Verif.Props.Natural.skip",
    "Verif.Props.Natural.reported",
    "Verif.Props.Natural.size",
    "Verif.Props.Natural.limited",
    "Verif.Props.Natural.limited_partial",
    "Verif.Props.Natural.descent",
    "Verif.Props.Natural.descent_partial",
    "Verif.Props.Natural.large_violation",
    "Verif.Props.Natural.small_violation",
    "Verif.Props.Natural.uphill_violation",
    "Verif.Props.Natural.zero_rate_violation"
   ],
   "note": "Proved over ordered fields (no rounding) for given Fisher products and solutions of the solver. False as stated (witness theorems): the code divides by the learning rate instead of its square root, so that the divergence is about the square of the learning rate; with damping and without only_positive_updates, or with learning rate 0, a step may go far uphill."
  },
  {
   "property": "C131",
   "status": "partial",
   "theorems": [
    "Verif.Props.Saver.documented",
    "Verif.Props.Saver.path",
    "Verif.Props.Saver.rejected",
    "Verif.Props.Saver.rejected_partial",
    "Verif.Props.Saver.first",
    "Verif.Props.Saver.numbered",
    "Verif.Props.Saver.spaced",
    "Verif.Props.Saver.prompt",
    "Verif.Props.Saver.newest_kept",
    "Verif.Props.Saver.last_found",
    "Verif.Props.Saver.hours_deleted",
    "Verif.Props.Saver.hours_preserved",
    "Verif.Props.Saver.hours_recorded",
    "Verif.Props.Saver.taken_over",
    "Verif.Props.Saver.permanent",
    "Verif.Props.Saver.frequency_violation",
    "Verif.Props.Saver.hours_violation",
    "Verif.Props.Saver.close_violation"
   ],
   "note": "Proved for all configurations, histories and directories; the checkpoint manager of TensorFlow is modelled from its source. False as stated (witness theorems): a dictionary without the required frequency, or with 0, and negative numbers of hours are accepted; closing the agent does not save its final state if the frequency is not reached."
  },
  {
   "property": "C132",
   "status": "partial",
   "theorems": [
    "Verif.Props.Load.named_partial",
    "Verif.Props.Load.latest_partial",
    "Verif.Props.Load.saver_partial",
    "Verif.Props.Load.unchanged",
    "Verif.Props.Load.absent",
    "Verif.Props.Load.path_violation",
    "Verif.Props.Load.directory_violation",
    "Verif.Props.Load.named_violation",
    "Verif.Props.Load.slash_violation",
    "Verif.Props.Load.load_violation"
   ],
   "note": "Proved for agents without saver, and for saver dictionaries without other directory or file name. False as stated (witness theorems): if the saver is a path, the new agent is saved first and then loaded instead of the trained one; with a saver dictionary the given directory and file name are ignored; a directory which ends with a slash cannot be loaded; a saver configured not to load loads. Only checkpoint files; for the choice among other formats see C40."
  },
  {
   "property": "C133",
   "status": "partial",
   "theorems": [
    "Verif.Props.Arcade.executed",
    "Verif.Props.Arcade.reset",
    "Verif.Props.Arcade.signalled",
    "Verif.Props.Arcade.documented_partial",
    "Verif.Props.Arcade.return_partial",
    "Verif.Props.Arcade.defaults",
    "Verif.Props.Arcade.over_signalled",
    "Verif.Props.Arcade.within_bounds",
    "Verif.Props.Arcade.name_violation",
    "Verif.Props.Arcade.positive_violation",
    "Verif.Props.Arcade.both_violation",
    "Verif.Props.Arcade.gained_violation"
   ],
   "note": "Proved for arbitrary games: what is signalled in general, and the documented outcome and return for games in which lives are never gained, with penalties and without termination. False as stated (witness theorems): the documented arguments have other names and a punishment of opposite sign, positive rewards and punishments together with termination have no effect, and the loss of a life gained before is not noticed. The emulator is an arbitrary transition function."
  },
  {
   "property": "C134",
   "status": "partial",
   "theorems": [
    "Verif.Props.Doom.count",
    "Verif.Props.Doom.digits",
    "Verif.Props.Doom.factored",
    "Verif.Props.Doom.bijective",
    "Verif.Props.Doom.reward",
    "Verif.Props.Doom.visualized_partial",
    "Verif.Props.Doom.states",
    "Verif.Props.Doom.visualize_violation"
   ],
   "note": "Proved for arbitrary games, with make_action of the library as documented. False as stated (witness theorem): visualized, all frames are advanced even if the episode has ended, and the last reward is added for each (in a game which keeps its last reward)."
  },
  {
   "property": "C135",
   "status": "partial",
   "theorems": [
    "Verif.Props.Adapters.announced_partial",
    "Verif.Props.Adapters.returned",
    "Verif.Props.Adapters.within_bounds",
    "Verif.Props.Adapters.executed",
    "Verif.Props.Adapters.refused",
    "Verif.Props.Adapters.levels_accepted",
    "Verif.Props.Adapters.state_violation",
    "Verif.Props.Adapters.execute_violation",
    "Verif.Props.Adapters.level_violation"
   ],
   "note": "Proved for arbitrary games of PLE. False as stated (proved for all games): states of games with game state raise a TypeError since a method is not called, and every execution of OpenSim raises an AttributeError; two of the three documented OpenSim levels are rejected."
  },
  {
   "property": "C136",
   "status": "partial",
   "theorems": [
    "Verif.Props.RunnerInit.direct",
    "Verif.Props.RunnerInit.vectorized",
    "Verif.Props.RunnerInit.actors",
    "Verif.Props.RunnerInit.sockets",
    "Verif.Props.RunnerInit.distinct",
    "Verif.Props.RunnerInit.only_partial",
    "Verif.Props.RunnerInit.invalid_partial",
    "Verif.Props.RunnerInit.same_spaces",
    "Verif.Props.RunnerInit.addresses_refused",
    "Verif.Props.RunnerInit.misfit",
    "Verif.Props.RunnerInit.evaluation_refused",
    "Verif.Props.RunnerInit.vectorized_alone",
    "Verif.Props.RunnerInit.evaluation_violation",
    "Verif.Props.RunnerInit.dropped_violation",
    "Verif.Props.RunnerInit.object_violation",
    "Verif.Props.RunnerInit.type_violation",
    "Verif.Props.RunnerInit.agent_violation"
   ],
   "note": "Proved for all documented combinations and arbitrary environments. False as stated (witness theorems): evaluation with a list of one environment and objects in other processes are accepted, further environments are dropped if the first of a list is vectorizable, wrong types raise TypeErrors or IndexErrors, and classes as agents and paths which contain \"directory\" are rejected."
  },
  {
   "property": "C137",
   "status": "partial",
   "theorems": [
    "Verif.Props.Command.runs_partial",
    "Verif.Props.Command.client_partial",
    "Verif.Props.Command.server",
    "Verif.Props.Command.path",
    "Verif.Props.Command.stored",
    "Verif.Props.Command.excess",
    "Verif.Props.Command.port_rejected",
    "Verif.Props.Command.pieces_rejected",
    "Verif.Props.Command.agent_violation",
    "Verif.Props.Command.level_violation",
    "Verif.Props.Command.comma_violation",
    "Verif.Props.Command.ragged_violation"
   ],
   "note": "Proved for all command lines with an agent, after parsing by argparse. False as stated (witness theorems): without agent each command line but a server fails with an AttributeError, a level without environment is a TypeError, and if a run ends early the rows have different lengths. Files and plots are not modelled."
  },
  {
   "property": "C138",
   "status": "partial",
   "theorems": [
    "Verif.Props.Callbacks.absent",
    "Verif.Props.Callbacks.single",
    "Verif.Props.Callbacks.all_true",
    "Verif.Props.Callbacks.several_partial",
    "Verif.Props.Callbacks.nothing_violation"
   ],
   "note": "Proved for one callback, and for lists of callbacks which return truth values. False as stated (witness theorem): in a list a callback which returns nothing ends the run, since the wrong variable is tested."
  },
  {
   "property": "C139",
   "status": "partial",
   "theorems": [
    "Verif.Props.Image.announced",
    "Verif.Props.Image.height_only",
    "Verif.Props.Image.width_only",
    "Verif.Props.Image.rejected",
    "Verif.Props.Image.returned_partial",
    "Verif.Props.Image.unchanged",
    "Verif.Props.Image.interpolated",
    "Verif.Props.Image.within",
    "Verif.Props.Image.weighted_sum",
    "Verif.Props.Image.default_sum",
    "Verif.Props.Image.gray_within_partial",
    "Verif.Props.Image.vanishing_violation",
    "Verif.Props.Image.channels_violation",
    "Verif.Props.Image.broadcast_violation",
    "Verif.Props.Image.gray_violation",
    "Verif.Props.Image.weights_violation"
   ],
   "note": "Proved for all images over a linearly ordered field; resizing of TensorFlow is modelled from its source, without rounding. False as stated (witness theorems): small heights of narrow images are rejected since the width is rounded to zero, grayscale layers for other than three channels and weights of other numbers are accepted, and values leave the announced range for weights whose sum is not one, among them the default weights."
  },
  {
   "property": "C140",
   "status": "partial",
   "theorems": [
    "Verif.Props.Embedding.default_number",
    "Verif.Props.Embedding.given_number",
    "Verif.Props.Embedding.rejected",
    "Verif.Props.Embedding.own_row",
    "Verif.Props.Embedding.independent",
    "Verif.Props.Embedding.embedded_partial",
    "Verif.Props.Embedding.shape",
    "Verif.Props.Embedding.clipped",
    "Verif.Props.Embedding.few_violation",
    "Verif.Props.Embedding.size_violation",
    "Verif.Props.Embedding.unbounded_violation"
   ],
   "note": "Proved for all states and weights if there are enough embeddings; the norm is an arbitrary homogeneous function. False as stated (witness theorems): fewer embeddings than values are accepted since the check is skipped if a number is given, states without number of values are accepted, and negative sizes are one."
  },
  {
   "property": "C141",
   "status": "partial",
   "theorems": [
    "Verif.Props.Variables.number_filled",
    "Verif.Props.Variables.zeros_filled",
    "Verif.Props.Variables.ones_filled",
    "Verif.Props.Variables.constant_filled",
    "Verif.Props.Variables.array_copied",
    "Verif.Props.Variables.orthogonal_values",
    "Verif.Props.Variables.normal_values",
    "Verif.Props.Variables.rejected_partial",
    "Verif.Props.Variables.typed",
    "Verif.Props.Variables.trained",
    "Verif.Props.Variables.constant_violation",
    "Verif.Props.Variables.normal_violation",
    "Verif.Props.Variables.truth_violation"
   ],
   "note": "Proved over a linearly ordered field, without rounding, from facts on the square root and the singular value decomposition (orthonormal columns and rows). False as stated (witness theorems): a constant without scale fails in TensorFlow, normal numbers for a single number raise an IndexError, and a truth value for an integer fails in TensorFlow."
  },
  {
   "property": "C142",
   "status": "partial",
   "theorems": [
    "Verif.Props.Weights.orthogonal_weights",
    "Verif.Props.Weights.preserved",
    "Verif.Props.Weights.bounded",
    "Verif.Props.Weights.scale_rejected",
    "Verif.Props.Weights.bias_zero",
    "Verif.Props.Weights.embedding_normal"
   ],
   "note": "Proved for all sizes and scales; partial since rounding is left out and the singular value decomposition of NumPy is an argument with the facts expected of it."
  },
  {
   "property": "C143",
   "status": "partial",
   "theorems": [
    "Verif.Props.Attention.average_partial",
    "Verif.Props.Attention.bounded",
    "Verif.Props.Attention.constant",
    "Verif.Props.Attention.permuted",
    "Verif.Props.Attention.rank_accepted",
    "Verif.Props.Attention.rank_rejected",
    "Verif.Props.Attention.size_violation",
    "Verif.Props.Attention.attention_rejected"
   ],
   "note": "Proved over a linearly ordered field for positive sizes, from the expected facts on exponential function and square root, without rounding; the linear layers are arbitrary functions of the features of a position, and activation and dropout are left out (the layer cannot be constructed with them, see C49). False as stated (witness theorem): the documented size 0 fails when the layer is applied; inputs whose last axis of positions has size one are left out there."
  },
  {
   "property": "C144",
   "status": "partial",
   "theorems": [
    "Verif.Props.Activation.facts_real",
    "Verif.Props.Activation.accepted",
    "Verif.Props.Activation.rejected",
    "Verif.Props.Activation.length_partial",
    "Verif.Props.Activation.piecewise",
    "Verif.Props.Activation.equations",
    "Verif.Props.Activation.ranges",
    "Verif.Props.Activation.softmax_distribution",
    "Verif.Props.Activation.increasing",
    "Verif.Props.Activation.zeros",
    "Verif.Props.Activation.odd",
    "Verif.Props.Activation.announced_partial",
    "Verif.Props.Activation.crelu_violation",
    "Verif.Props.Activation.announced_violation"
   ],
   "note": "Values and ranges proved for all inputs over a linearly ordered field, from expected facts on exponential function and logarithm, which are proved for the real numbers; the functions of TensorFlow are modelled as documented, without rounding. False as stated (witness theorems): crelu has twice the announced size, and the announced bounds, those of the input, are left by sigmoid, tanh, softsign and softmax. The announced output is proved right for relu, leaky-relu and none, if the upper bound is not negative."
  },
  {
   "property": "C145",
   "status": "partial",
   "theorems": [
    "Verif.Props.GlobalPool.places_all",
    "Verif.Props.GlobalPool.places_once",
    "Verif.Props.GlobalPool.sum",
    "Verif.Props.GlobalPool.product",
    "Verif.Props.GlobalPool.mean",
    "Verif.Props.GlobalPool.max",
    "Verif.Props.GlobalPool.concat",
    "Verif.Props.GlobalPool.flatten"
   ],
   "note": "Proved for all inputs over a linearly ordered field, mean and maximum for axes of positive size; partial since rounding is left out, and the reductions of TensorFlow are modelled as documented."
  },
  {
   "property": "C146",
   "status": "partial",
   "theorems": [
    "Verif.Props.LocalPool.reduced",
    "Verif.Props.LocalPool.within",
    "Verif.Props.LocalPool.covering",
    "Verif.Props.LocalPool.complete",
    "Verif.Props.LocalPool.same",
    "Verif.Props.LocalPool.one_dimension",
    "Verif.Props.LocalPool.arguments_partial",
    "Verif.Props.LocalPool.rejected",
    "Verif.Props.LocalPool.stride_violation",
    "Verif.Props.LocalPool.length_violation"
   ],
   "note": "Proved for all inputs over a linearly ordered field, without rounding; the pooling operations of TensorFlow are modelled as documented. False as stated (witness theorems): a pair of strides for a single window is a TypeError, three strides are accepted, one is an IndexError; windows and strides which are zero are refused by TensorFlow only."
  },
  {
   "property": "C147",
   "status": "partial",
   "theorems": [
    "Verif.Props.Tuner.follows",
    "Verif.Props.Tuner.incomplete",
    "Verif.Props.Tuner.valid",
    "Verif.Props.Tuner.runs",
    "Verif.Props.Tuner.refused",
    "Verif.Props.Tuner.loss",
    "Verif.Props.Tuner.better"
   ],
   "note": "Proved for all configurations and returns over a linearly ordered field, without rounding; budgets are natural numbers and their logarithm is taken to be exact, running an agent is an arbitrary function, and the fixed parts of the agent are left out. Partial since acceptance by the constructors of agents is only compared with the documented ranges."
  },
  {
   "property": "C148",
   "status": "partial",
   "theorems": [
    "Verif.Props.Convolution.dense_value",
    "Verif.Props.Convolution.shape",
    "Verif.Props.Convolution.outputs",
    "Verif.Props.Convolution.zeros",
    "Verif.Props.Convolution.value",
    "Verif.Props.Convolution.linear",
    "Verif.Props.Convolution.window_only",
    "Verif.Props.Convolution.shift",
    "Verif.Props.Convolution.one_dimension",
    "Verif.Props.Convolution.linear_image",
    "Verif.Props.Convolution.linear_sequence"
   ],
   "note": "Proved for all inputs and weights over a commutative ring and for positive output sizes, without rounding, activation and dropout; the convolutions of TensorFlow are modelled as documented, the one-dimensional one as the two-dimensional one for a single row. For transposed convolutions see C149."
  },
  {
   "property": "C149",
   "status": "partial",
   "theorems": [
    "Verif.Props.Transposed.shape",
    "Verif.Props.Transposed.refused",
    "Verif.Props.Transposed.adjoint_partial",
    "Verif.Props.Transposed.bias_added",
    "Verif.Props.Transposed.default_accepted",
    "Verif.Props.Shape.transpose_channels_violation",
    "Verif.Props.Shape.output_width_fails"
   ],
   "note": "Proved for all sequences and weights over a commutative ring, without rounding, activation and dropout, the operation of TensorFlow being modelled as documented. False as stated for the layer as constructed: its weights have the input and output sizes exchanged, so that it only works if they agree, and a given output width fails (witnesses transpose_channels_violation and output_width_fails, see C43)."
  }
 ]
}