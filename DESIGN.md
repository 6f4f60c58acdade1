# Formal model of tensorforce in Lean 4 — design

## 1. Approach

`/repo` (Python, TensorFlow) is read as text; nothing is executed. Every modelled function becomes a small,
total, computable Lean function that follows the Python branch by branch; exceptions and failed
TensorFlow assertions are values (`Except`/`Option`). Stateful objects become a state structure with
`init` and one function per operation; a history is a list of operations. Loops (`tf.while_loop`,
`tf.foldr`, Python `for`) become structural recursion or iteration with the code's own bound.
Numbers that are TensorFlow floats in the code are exact field elements in the model (rounding is *not* modelled).
Randomness, user environments, loss functions, inner optimizers, RNN cells are parameters, universally
quantified in the theorems.

Layout:

* `lean/Verif/<Area>/Model*.lean` — model definitions, each with the `/repo` file and lines it models;
* `lean/Verif/<Area>/Lemmas*.lean` — helper lemmas;
* `lean/Verif/<Area>/Spec*.lean` — small independent specifications used by the theorem statements;
* `lean/Verif/Props/*.lean` — the property theorems, each with a non-vacuity `example` next to it;
* `MANIFEST.json` — property → theorem names and status;
* `seeded/LOG.jsonl` — mutation attempts on a scratch copy of the model. `failed_theorems` lists the proofs that no longer
  compile, which includes proofs whose statement is still true. A mutant counts as killed only if a claimed statement
  becomes false: `falsified` names such statements where recorded, `verified` says whether this was established by running
  the statements on generated inputs (`checker`) or by an argument (`by hand`).

## 2. Trusted base

* Lean 4.33.0 kernel (and the elaborator that produces the terms it checks); Mathlib where imported.
* Axioms: at most `propext`, `Classical.choice`, `Quot.sound` for every property theorem. No own axioms, no `sorry`,
  no `native_decide`/`bv_decide`.
* Faithfulness of the hand-written model to the Python text (the citation comments are there so that it
  can be checked); TensorFlow/NumPy/Keras primitives are modelled by their documented behaviour.
* Policies and objectives are modelled over an arbitrary ordered field; `exp`, `log`, `tanh` and so on are parameters with the laws in
  `Verif/Policy/Spec.lean`, which are proved for the real functions (`real_laws`) and, so that examples can be computed, for
  step functions over the rationals (`step_laws`). For objectives the laws are `ExpLaws` (`real_exp_laws`, `hyper_laws`).
* The cart-pole environment is modelled in the same way, with the laws `Trig.Laws` of sine and cosine (`Cart.real_laws`), and with the
  equations of motion of the paper cited in the code as specification (`Motion`).
* Normalization layers (C119-C122) are modelled over an arbitrary ordered field; the reciprocal square root is a function with the
  equation `Rsqrt`, which holds for the real one.
* `tf.random.uniform` for integers is taken to require integer bounds in strict order, with the upper one given, and `tf.random.normal`
  to reject integer types, as documented (C123). Python's conversion to integers truncates towards zero.
* Random number generators are taken to give independent numbers, uniform in [0, 1] or normally distributed (C69); probabilities are
  measures as defined in Mathlib.
* `tf.train.CheckpointManager` (C131, C132) is modelled from its source: interval, record of the checkpoints, deletion of old ones.
* The simulators behind the ALE, ViZDoom, PLE and OpenSim adapters (C133-C135) are arbitrary transition functions; `make_action` of ViZDoom is taken
  to stop at the end of the episode and to return the sum of the rewards of its frames, as documented.
* `tf.image.resize` (C139) is modelled from its source: bilinear with half pixel centers, without antialiasing; `tf.nn.embedding_lookup` (C140) is
  taken to raise an exception for indices out of range, as on a CPU.
* `np.linalg.svd` and `np.sqrt` (C141, C142) are functions with the facts `Facts`: orthonormal columns and rows, and the root of numbers which are
  not negative. `tf.constant` refuses truth values for integers.
* Exponential function, logarithm and square root (C143, C144) are functions with the facts `Facts`, which hold for the real numbers
  (`facts_real`); the activation functions of TensorFlow are taken to be as documented.
* Reductions and pooling operations of TensorFlow (C145, C146) are taken to be as documented; missing entries of a padded window are ignored.
* The tuner (C147): running an agent is an arbitrary function which gives returns, and the logarithm of a budget is taken to be exact.
* Matrix products and convolutions of TensorFlow (C148) are taken to be as documented, with zeros for missing entries.
* Not modelled: floating-point rounding, 64-bit overflow, device placement, graph tracing, `tf.function` retracing,
  actual threads/sockets/processes (only their message-level contract), Keras cells, gradient computation.

## 3. Plan per property

| id | what is modelled | how it is proved |
|---|---|---|
| C01 | `Queue.initialize/enqueue/reset/retrieve` on lists | refinement to the sliding window "last `cap` elements of the history" |
| C02 | same + `terminal_indices`, `episode_count` | same refinement, the index list equals the slots of the terminals in the window |
| C03 | `Recent.retrieve_timesteps` | on top of the refinement; negation for the `episode_count` branch with future horizon |
| C04 | `Recent/Replay.retrieve_episodes` | on top of the refinement |
| C05 | `Replay.retrieve_timesteps/episodes`, random indices as parameters | refinement + range argument |
| C06 | `Queue.predecessors` loop | loop invariant over iterations |
| C07 | `Queue.successors` loop | loop invariant over iterations |
| C08 | `core_observe` (circular, episode, parallel variants) return computation | fold/scan algebra over a commutative ring, induction over chunkings |
| C09 | circular buffer index arithmetic | invariant over act/observe history |
| C10 | terminal experience variants | closed form; negation for dropped last reward and discount 0 |
| C11 | GAE reverse scan | induction over batch |
| C12 | update schedule, episodes unit | invariant on `last_update` |
| C13 | update schedule, timesteps unit | decision logic + negations |
| C14 | recorder/agent protocol state machine | invariant + refinement to per-interaction alternation automaton |
| C15 | `Agent.observe` buffering | invariant over histories |
| C16 | recorder buffers, trace emission | invariant over histories, negations |
| C17 | `EnvironmentWrapper` state machine with arbitrary inner environment | induction over histories |
| C18 | remote client/server message protocol | lock-step refinement to direct calls |
| C19 | non-blocking thread protocol | state machine; negation for failing call |
| C20 | byte-level framing | round trip for <4096 bytes, negation for longer |
| C21 | `NestedDict` operations | laws by induction over paths |
| C22 | `SignatureDict` flatten / rebuild | round trip by structural induction |
| C23 | `TensorSpec.unify`, value acceptance | case analysis; negations |
| C24 | `util.is_equal` | structural induction; negation with witness |
| C25 | `util.deep_disjoint_update` | structural induction |
| C26 | masked exploration index arithmetic | segment/prefix-sum argument over ℚ |
| C27 | `Sequence` layer state machine | refinement to "last L observations"; negation for parallel interactions |
| C28 | `Deltafier` state machine | same |
| C29 | decay formulas over ℚ, cosine and real powers from an oracle with stated laws | range and limit arguments; negations |
| C30 | linear decay | algebra; negation at `num_steps` |
| C31 | piecewise constant | induction over boundary list |
| C32 | optimizer/update-modifier combinators | induction over modifier expressions |
| C33 | `DoublecheckStep` | direct |
| C34 | line search loop | loop invariant |
| C35 | `Synchronization` | invariant on countdown |
| C36 | `SubsamplingStep` re-indexing | list algebra |
| C37 | conjugate gradient loop | loop invariant over an abstract module |
| C38 | runner loop | invariant; negations |
| C39 | `save_best_agent` logic | fold; negation |
| C40 | `Agent.restore` file-name selection | list argmax; negation |
| C41 | name-indexed save/restore | association-list round trip |
| C42 | `TemporalLayer` loop | loop invariant; negation of the internal assertion |
| C43 | layer output shapes | arithmetic |
| C44 | `Environment.create` decision tree | case analysis; negations |
| C45 | bootstrapped and trace-decay returns | closed forms; negation for single-timestep episodes |
| C47 | trace files of the recorder | invariant over all histories |
| C46 | local `start_*`/`receive_*` pairs | refinement to direct calls; negation after an exception |
| C48 | `Agent.load` specification file name | string algebra; negations |
| C49 | `TransformationBase` and its subclasses | recorded operations; negations |
| C50 | graph cache of `tf_function` | invariant over all call histories; negations |
| C51 | runner loop, order of calls | invariant over the recorded events; negation for batched calls |
| C52 | distributions of `ParametrizedDistributions` | algebra over ordered fields; negation for many masked values |
| C53 | sampling at temperature zero | case split, no arithmetic |
| C54 | `temperature` argument | case split; negation |
| C55 | `Gaussian` and `Beta` transformations to bounds | inverse functions; negation for one-sided clipping |
| C56 | default distributions | case split; negation for one bound |
| C57 | softmax, sigmoid, masks | ordered field algebra |
| C58 | entropy and KL divergence | logarithm inequalities over the reals; negations |
| C59 | `ParametrizedValuePolicy` | argmax and mean lemmas; negations |
| C60 | log-probabilities of `Gaussian` and `Beta` | equations with explicit densities over the reals |
| C61 | `Value.loss` | case analysis of the Huber loss; tangent inequality, from which the derivative follows; negations |
| C62 | `PolicyGradient.loss` | monotonicity of clipping, laws of exponential and logarithm, derivative over the reals |
| C63 | `Plus.reference`, `Plus.loss` | induction over the nesting |
| C64 | types of policy and baseline in `TensorforceModel.__init__`, calls of `update` | requirement by requirement; negations |
| C65 | the same | equation; negation |
| C66 | `Model.act`, `independent_act`, `observe`, `reset`, `core_initialize` | invariant of runs against the calls since the last terminal; negation |
| C67 | the same | the invariant; negation |
| C68 | variable noise in `TensorforceModel.core_act` | cancellation; error bound for rounding; negations |
| C69 | sampling of `Categorical`, `Bernoulli`, `Gaussian` | volume of the set of random numbers giving an action; image of the normal distribution |
| C70 | action and state values of the same | equations; bounds of log-sum-exp; negations |
| C71 | defaults in `TensorforceModel.__init__` | equation with the documented defaults; negation |
| C72 | choice of the default type | case by case, minimality over all types |
| C73 | `OpenAIGym.specs_from_gym_space` | mutual induction over the nesting of spaces; negations |
| C74 | `OpenAIGym.unflatten_action` | induction over supported spaces: conversion and components are inverse; negations |
| C75 | `OpenAIGym.flatten_state` | case analysis by components; the negation for all nested spaces |
| C76 | clipping and dropping in `OpenAIGym.reset`, `execute` | elementwise; sorted indices; negations |
| C77 | termination in `OpenAIGym.execute` | induction over the steps of an episode; negations |
| C78 | `OpenAIGym.create_level` | invariant of the search; a free version exists by counting; negation |
| C79 | `CartPole.execute`, `reset` | field algebra: the computed accelerations solve the two linear equations, whose determinant is positive |
| C80 | `CartPole.__init__` | field inequalities over the ends of the ranges; negations |
| C81 | parallel instances in `CartPole` | induction over the steps: rows are aligned with the instances which are left |
| C82 | `CartPole` bounds, `reset`, `execute` | inequalities by components; negation |
| C83 | `CartPole.execute` | case analysis; negation |
| C84 | `LayeredNetwork` and the registry of layers | simulation of the recursive evaluation by the list of steps which a specification means; negations |
| C85 | `output_spec` and `apply` of the same | invariant of the steps: every tensor is as announced; negation |
| C86 | `internals_spec`, `max_past_horizon` | the temporal layers collected are those of the steps; negations |
| C87 | rows of tensors in `_recursive_apply` | invariant with numbers of rows as tensors; negation |
| C88 | registered tensors | invariant of the steps; negation |
| C89 | outputs of networks and inputs of distributions | equation; negation |
| C90 | `AutoNetwork` | announced shapes layer by layer, induction over states and depths; negation |
| C91 | `Preprocessor` | mutual induction over flat specifications; negations |
| C92 | creation of `LayeredNetwork` | equivalence with following the specifications through the steps, mutual induction; negation |
| C93 | `Module.get_module_class_and_args` | relation `Means` between specifications and what they stand for; soundness by induction over the depth, completeness by induction over the relation; negations |
| C94 | `try_import_module` | case analysis; negations |
| C95 | training steps of `TensorforceModel` | shape of every sequence of steps, case analysis; negations |
| C96 | `regularize`, `loss`, `baseline_loss` | mutual induction over trees of modules, then case analysis; negations |
| C97 | `register_summary`, `summary` | induction over sequences of calls; negation |
| C98 | `register_tracking`, `track`, `tracked_tensors` | induction over sequences of calls and modules; negation |
| C99 | names of `TensorforceModel` | case analysis of all configurations, induction over the names of actions; negation |
| C100 | `summarizer` directories | sorting lemmas, order of formatted times; negations |
| C101 | agent classes, `spec`, `Agent.load` | what is found in the saved specification, class by class; negations |
| C102 | arguments passed on by the agent classes | table of documented places, case analysis of classes; negations |
| C103 | the same | injectivity of the configuration, case analysis of classes; negation |
| C104 | checks of the agent classes | every check passes; negations |
| C105 | `buffer_observe` of `TensorforceAgent` | case analysis; negations |
| C106 | choice of state preprocessing and exploration by name and type | lookup lemmas; negations for types, groups, probabilities |
| C107 | update configuration: keys, unit, batch size, frequency, start | equivalence with a declarative specification; negations |
| C108 | minimum and given capacity of the memory | equivalence with a list of needs; composition with the memory model (C01-C04); negations |
| C109 | reward horizon | equivalence with the specification; composition with C107 and C108; negations |
| C110 | conversion of values | equivalence with membership in the specified space, entry by entry; inverse; negations |
| C111 | checks of outputs | equivalence with types and shapes; completeness for elements of the space; negations |
| C112 | creation, saving and copying of specifications | equivalences by kind of bounds; saving and reading are inverse; negations |
| C113 | forms of states in `_process_states_input` | arrays represent the rows given by every form; forms agree; equivalences for what is accepted; negations |
| C114 | `Agent.experience` | batches are whole episodes, glue to the input by name, likewise masks and given internal states; counters; rejection without effect; negations |
| C115 | `Agent.pretrain` and recorded states | per iteration: batches glue to the chosen traces, then updates; negations |
| C116 | forms of `Agent.act` | the policy's input and the returned form, row by row, for an arbitrary policy; conformance; negation |
| C117 | internal states in `Agent.act` | passed and returned in the form given; two calls in a row; required or refused; negations |
| C118 | argument `parallel` of `Agent.act` | exact change of the waiting interactions; rejection without effect; negations |
| C119 | `LinearNormalization` | entry by entry: affine map, comparison of extended numbers; acceptance by evaluating every check; negations |
| C120 | `ExponentialNormalization` | closed form of the moving averages by induction over time steps; convexity; negations |
| C121 | `InstanceNormalization`, `BatchNormalization` | groups of entries as sets of multi-indices; sums over groups |
| C122 | `Clipping`, `Layer.output_spec` | case analysis; negations |
| C123 | `Random`, `Parameter.__init__/value/is_constant`, random numbers as parameters | case analysis, truncation is monotone; negations |
| C124 | `OrnsteinUhlenbeck`, noise as parameter | induction over the calls; negations |
| C125 | `ConstantModel`, mask checks of `Model.act` and `independent_act` | induction over actions and mask rows; negations |
| C126 | argument forms of `Recorder.observe` | relation between arguments and meaning, equivalent to acceptance; negations |
| C127 | `Agent.observe` with buffers, counters and `to_tensor` | invariant over histories; induction over the loop; negations |
| C128 | `OptimizerWrapper` and signatures of the optimizers | relation between nested specification and list of modifiers; dictionaries by lookup; negations |
| C129 | `TFOptimizer.step`, `ClippingStep.step`, TensorFlow's clipping functions | ordered field algebra; relations between lists; negations |
| C130 | `NaturalGradient.step` after the solver | ordered field algebra; concrete witnesses |
| C131 | saver configuration, `tf.train.CheckpointManager` from its source | induction over calls, list algebra; negations |
| C132 | `Agent.load`, `Model.initialize` and `Model.restore` with savers | case analysis; negations |
| C133 | ALE adapter over an arbitrary emulator | induction over the actions with the lowest number of lives so far; negations |
| C134 | ViZDoom adapter over an arbitrary game | induction over buttons and frames; negation |
| C135 | PLE and OpenSim adapters | case analysis; negations for all games |
| C136 | creation of runners | each documented combination evaluated, addresses as lists; inversion for accepted arguments |
| C137 | command line program | splitting is inverse to joining; induction over episodes and repetitions for the table |
| C138 | several callbacks | induction over the callbacks |
| C139 | image layer: resizing and grayscale | floor and remainder of pixel positions; convex combinations |
| C140 | embedding layer | case analysis; induction over entries |
| C141 | initial values of variables | case analysis; a square matrix with orthonormal columns has orthonormal rows |
| C142 | initial weights of layers | exchange of sums; Bessel's inequality |
| C143 | self-attention of one example: scores, softmax, average of the values, bias | softmax as positive weights with sum 1; bounds of averages; sums do not depend on the order |
| C144 | activation functions by name, announced size and bounds | case analysis; monotonicity of the exponential function |
| C145 | reductions of one axis after the other, concatenation | induction on the axes; sums over sums |
| C146 | windows of two axes with padding, their reductions, arguments | arithmetic of windows; bounds of means |
| C147 | configuration, agent and loss of the tuner | cases of the baseline; means and last parts of lists |
| C148 | weighted sums over windows of two padded axes, dense layers as windows of one | unfolding of sums; arithmetic of windows |
| C149 | weighted sums of the transposed convolution, its default width | adjoint of the convolution by exchanging sums |

## 4. Where the code disagrees with a property

Each item is proved as a theorem with a concrete or universally quantified witness (named in brackets) about the model;
lines refer to `/repo/tensorforce`.

* Memory (C02-C07): a rejected batch has already cleared the end marker, because the assignment runs before the
  assertions (`core/memories/queue.py` 160-226), so look-ahead can pass the write head
  (`lookahead_after_rejection_violation`) and look-back too (`lookback_after_rejection_violation`). The theorems for C06 and
  C07 therefore assume that no batch was rejected, or that the last stored timestep ends an episode. From commit
  9c1b9e6 on the quantifiers of C06 and C07 had been narrowed to accepted batches after this was found; they are restored
  to the original wording, and both claims are partial. Timestep batches with horizons
  can return an unwritten slot (`recent_timesteps_violation`). A finished episode of exactly `capacity` timesteps is stored
  but never retrieved as an episode, and the episode count can be -1 (`full_length_episode_violation`).
* Returns (C08, C09, C10, C45): the last reward of an aborted episode is lost (`abort_loses_last_reward`); trace decay fails for
  episodes of one timestep (`lam_single_timestep_violation`).
* Update schedule (C13): the start is ignored after the first episode and updates can be closer than the frequency
  (`start_ignored_violation`, `frequency_violation`).
* Environment wrapper (C17): negative terminal codes neither end nor abort an episode (`negative_code_not_aborted`).
* Act-observe interface (C14): `act` and `observe` mark the timestep before they can still fail (`agents/recorder.py`
  245-252, 400-409), so a failing policy leaves the interaction pending (`failed_act_violation`) and an episode that is too
  long lets two `act` calls through (`too_long_violation`); an index given twice is accepted (`duplicate_index_violation`).
* Trace recorder (C16, C47): with several interactions and `start` > 0 episodes under way when recording starts are cut off,
  misaligned, or make `observe` raise (`mid_episode_start_violation`, `misaligned_trace_violation`,
  `empty_stack_violation`); a reset shortens the next file (`reset_trace_violation`); `max-traces` 1 deletes nothing
  (`files[:-1 + 1]`, line 472, `single_trace_violation`); names start at zero again in a new run, so older files count as
  newer (`earlier_run_violation`).
* Scheduled hyperparameters (C29, C30): inverse time decay with rate 1 is announced as constant but decays, with rate 0 it
  announces the final value 0 but is constant (`core/parameters/decaying.py` 175-184, 298-303,
  `inverse_time_constant_violation`, `inverse_time_final_violation`); `inverse` adds epsilon only to the value
  (`inverse_minimum_violation`); `final_value` reads `decay_rate` for the cosine schedules and raises (line 295,
  `cosine_final_violation`); restarts with `m_mul` > 1 and noise leave the range (`restarts_maximum_violation`,
  `noise_violation`); linear cosine starts above the initial value and may miss its final value
  (`linear_cosine_start_violation`, `linear_cosine_final_violation`); an increasing int schedule never reaches its final
  value (`int_final_violation`). All schedules run over `num_steps + 1` steps, so linear decay has not reached its final
  value at step `num_steps` (`linear_last_step_violation`).
* Exploration and random actions (C26): the random agent draws with `maxval=max_value`, which TensorFlow excludes, so that
  without masking the last action is never chosen and an action with one value raises (`core/models/random.py` 76-82,
  `random_last_violation`, `random_bound_violation`, `random_fails_violation`); exploration of int actions without
  `num_values` draws normal noise of an integer type and raises (`core/models/tensorforce.py` 1253,
  `int_exploration_violation`); exploration given per action takes `value()` of the dictionary (1183,
  `per_action_violation`).
* Stateful preprocessing (C27, C28): `Sequence` and `Deltafier` keep one state for all parallel interactions
  (`core/layers/preprocessing.py` 322-339, 152-163), so overlapping episodes mix and the end of one resets the others
  (`overlap_violation`, `other_terminal_violation`, `delta_overlap_violation`, `delta_other_terminal_violation`);
  independent act feeds the same state and `Agent.reset` leaves it (`independent_violation`, `agent_reset_violation`,
  `delta_disturbed_violation`); batches of more than one raise (`sequence_refuses_batches`, `delta_refuses_batches`).
* Optimizers (C32-C37): taking back a rejected step loses small variables to rounding, so the loss may be larger and the
  reported step wrong (`core/optimizers/doublecheck_step.py` 43-54, `reversal_violation`, `larger_loss_violation`); these
  use a rounding function (`Verif/Optim/Float.lean`), all other optimizer theorems exact arithmetic. Line search tries one
  multiple more than its iteration limit (`one_more_violation`) and may end worse than before the step
  (`worse_than_start_violation`). A weight that has the value 1 but is not constant does not copy the source
  (`weight_one_violation`). Conjugate gradient leaves the damping out of the first residual
  (`core/optimizers/solvers/conjugate_gradient.py` 145-150), so from a starting point other than zero it tracks a wrong
  residual (`damping_violation`, `leaves_solution_violation`); the only caller starts at zero.
* Runner (C38, C39, C51): with joint resets and no `num_episodes` a run never ends, whatever `num_timesteps` or `num_updates`
  (`execution/runner.py` 672-681 resets all environments again, `joint_reset_violation`); vectorized environments always use
  joint resets, so this holds for them too. An evaluation episode is never cut off (`evaluation_violation`). With batched
  calls the agent observes "not terminal" and acts again before the runner cuts an episode off (557-607, 777-783,
  `batch_cut_violation`, `batch_due_violation`), which is counted as an episode nobody observed (`batch_count_violation`). The first evaluation is
  only remembered, not saved (878-879, `first_best_violation`, `nan_violation`); every `run` call forgets the best score
  (511, `second_run_violation`).
* Saving and restoring (C40, C41, C48): files that begin like the base name break or mislead the search for the latest save
  (`agents/agent.py` 681-704: `unrelated_violation`, `foreign_number_violation`), unnumbered saves win or make it fail
  (`unnumbered_violation`, `both_violation`), saves in two formats fail (`mixed_violation`), `.h5` numbers lose two digits
  (702, `h5_violation`, `h5_digits_violation`), a complete `.h5` name reads the `.hdf5` file (`explicit_h5_violation`), and
  the last checkpoint may have another base name (713, `other_base_violation`). Variables whose names agree after removing
  the model name collide (`core/models/model.py` 891-894, `collision_violation`, `collision_hdf5_violation`,
  `nested_violation`), the name `file` collides with an argument (896, `file_violation`), and restoring ends the unfinished
  episode of a saved memory (978, `unfinished_episode_violation`). `Agent.load` cuts a dotted base name (159,
  `dotted_violation`) and does not find the specification of a checkpoint with an appended number
  (`appended_checkpoint_violation`).
* Temporal layers (C42): windows longer than needed fail the consistency check, which compares with the trimmed lengths
  (`core/layers/layer.py` 696-698, `trimmed_violation`); the output, unlike the internals, is not kept once a window has
  ended, so that the cell is applied once more to its last input (717-747, `shorter_violation`); with a constant horizon of
  zero the check uses an undefined name, and the internals are not updated (675-676, `zero_violation`). Beyond the model, the
  cumulative loop grows a tensor without declaring so to `tf.while_loop` and starts from the output instead of the input
  shape (663-670).
* Layer shapes (C43): `crelu` doubles the last axis and cannot be used (`crelu_fails`), except that a dense layer without
  output axis doubles the batch (`dense_crelu_violation`); `Pool1d`/`Pool2d` do not check `padding` (`pool_upper`); `Retrieve`
  does not check `axis`, and −1 means the batch (`concat_axis_violation`, `stack_axis_violation`), and announces broadcast
  shapes that `tf.stack` refuses (`broadcast_fails`); the weights of transposed convolutions have input and output channels
  swapped (`transpose_channels_violation`), and `output_width` reads `self.squeeze` before it is set
  (`core/layers/convolution.py` 326, `output_width_fails`). A mismatch is reported when the graph is traced, which may be at
  the first use.
* Transformation layers (C49): `Rnn.apply` calls `TemporalLayer.apply`, whose `super().apply` is already
  `TransformationBase.apply`, and then `TransformationBase.apply` again (`core/layers/rnn.py` 155-158, `core/layers/layer.py`
  705-707), so bias and activation are applied twice (`rnn_violation`) and size 0 fails (`rnn_squeeze_violation`). Dropout is
  called without its argument `deterministic` (`core/layers/layer.py` 840-841 with 176-181; `core/utils/dicts.py` 187-192),
  which always fails (`dropout_fails`). `SelfAttention.output_spec` uses `self.value` (101-102), which line 78 sets after the
  constructor of the base class needed it for an activation (`attention_fails`).
* Graph cache (C50): the key of a graph consists of the values of the parameters without their names (`core/module.py` 93),
  and of modules and functions it keeps the name only (38-41): `name_violation`, `order_violation`, `module_violation`,
  `function_violation`, `variable_violation`, `string_violation`. The calls of objectives with a policy do not collide, because
  policy and baseline have an objective of their own.
* Policies (C52–C58): sampling a masked integer action treats probabilities below 1e-6 as impossible, so with more than a
  million allowed values every value is, and index 0 is given even if masked (`core/distributions/categorical.py` 355-371,
  `mask_violation`). Actions left out of a temperature dictionary get temperature 0.0
  (`core/policies/stochastic_policy.py` 61, `temperature_violation`). Clipping with one bound first clips to [-1, 1]
  (`core/distributions/gaussian.py` 225-241, 293-309, `reach_violation`). Float actions with one bound have no default
  distribution (`gaussian.py` 70-76, `beta.py` 36-37, `default_violation`). The constant 1e-6 appears in one of two places of
  the Gaussian divergence only (`gaussian.py` 364-369, `gaussian_violation`) and makes the entropy of a sure action negative
  (`entropy_violation`).
* Soft values (C70): the state value of a masked integer action is computed before the mask is applied
  (`core/distributions/categorical.py` 225-231, as its comment says; `mask_violation`), and the action value of a float action transformed by `tanh`
  lacks the logarithm of its derivative (`core/distributions/gaussian.py` 398-405, `tanh_violation`).
* Value policies (C59): `state_value` returns the separate state value, which is the mean over all actions
  (`core/policies/parametrized_value_policy.py` 375-384, `separate_violation`). The state values per action are built from the
  state specification (145) and broadcast along the wrong axes (299, 489, `per_action_violation`); `state_values` does not
  pass names to its function (591-593).
* Objectives (C61, C64, C65): the Huber threshold 0 is accepted and makes the value loss zero
  (`value.py:60`). With `early_reduce` false, `Value.loss` concatenates the values of the actions without
  reshaping them and so fails for scalar actions (`value.py:129`), and it calls `state_values` or
  `action_values` although it asks for `state_value` or `action_value` (`65-69`), so that the default
  baseline does not have the function. Without separate baseline a deterministic policy gradient gets
  `None` as baseline (`tensorforce.py:2836`), although the policy is made to provide action values (`369`).
  A baseline optimizer or weight without baseline objective is accepted, and the first update calls the
  loss of `None` (`2929`). `ParametrizedActionValue.next_internals` omits an argument (`86-89`). Without
  predictions, what is required of the policy is required of the baseline (`406-414`).
* Defaults (C71): the documentation says that horizon values are predicted late by default with a baseline; with the horizon
  "episode" they are predicted early (`core/models/tensorforce.py` 168-172, `episode_violation`).
* Sessions (C66, C67, C68): if an interaction occurs twice in one batch, only one of the steps of its internal state is kept
  (`core/models/model.py` 570-646, `repeated_violation`). `Model.reset` returns the counters and resets nothing
  (507-512, `reset_violation`). Variable noise is added and subtracted, so that rounding changes the variables
  (`core/models/tensorforce.py` 1081-1093, 1145-1149, `rounding_violation`), and an exception in between leaves it
  there (1104-1138, `exception_violation`).
* Gym environments (C73–C78, `environments/openai_gym.py`): names of nested components collide if a name contains an underscore,
  and a nested name `type` is taken for the type of a component (354, 367; `collision_violation`, `type_violation`). Finite bounds
  beyond one million are dropped or rejected (297-307; `bound_violation`, `reject_violation`). Actions with more than ten different
  numbers or nested tuples fail the assertion in 470, since the test is for the prefix without underscore (`many_violation`,
  `nested_violation`); dictionaries in tuples and names with underscores give actions which are not in the space
  (`tuple_violation`, `underscore_violation`). Nested observations never fit (`nested_fails`): the specification has `gymmdc0_…`, which
  `flatten_state` looks for as `gymmdc0` (439), and a component with several entries fails in 388. Clipping raises for anything but a box
  (233), the bounds per element keep their size when values are dropped (202; `bounds_violation`), and invalid indices are accepted
  (`index_violation`). Termination in the last timestep counts as abort (247; `tie_violation`), and for instances and classes an abort
  as termination (164, 168; `instance_violation`). A version without limit is not reused, since `False != None` (85;
  `reuse_violation`), and an unknown level is reported as `None` (91).
* Cart-pole (C80, C82, C83, `environments/cartpole.py`): the bound of the velocity of the location is derived from an acceleration with
  the wrong sign (107-109), so that without ranges one step at full force always changes it by more than a tenth of the bound
  (`velocity_violation`), and a pole of at least twice the mass of the cart is rejected (`heavy`, `heavy_violation`). The bound of the
  velocity of the angle divides by a bracket which combines the heaviest pole with the lightest total mass, and may be negative
  (`range_violation`). A negative timestep passes if both accelerations are negative (`negative_violation`). Initial maxima are not
  compared with the bounds (`initial_violation`). With float actions for parallel instances, the array of the caller is multiplied in
  place (173-176, `actions_violation`), and `Environment` passes it to the reward shaping function afterwards.
* Networks (C84-C89, C91): a reused layer is looked up by name in a registry common to all networks when it is applied
  (`layer.py` 433-460), so that a later layer with the same name replaces it, also one of another network (`redefined_violation`,
  `repeated_violation`), even with another size (`announced_violation`). Default names are counted per list, so that temporal layers in
  two blocks clash (`blocks_violation`), and a temporal layer cannot be used twice (`reused_violation`). A tensor retrieved after a
  temporal layer still has the rows of the past horizon (`rows_violation`). With several inputs any first layer is accepted and gets the
  first input (`several_violation`). `LayerbasedNetwork.__init__` drops the argument `outputs` (network.py 118-121), so that
  `single_output=False` has no effect (`outputs_violation`). Preprocessing accepts blocks and reused layers, which it cannot apply
  (`block_violation`), and announces its input under another name than it registers (`input_violation`).
* Names (C92): `Module.submodule` is to reject a second submodule with the same name (`module.py` 488-489), but the layers of a network are
  not among its submodules before all of them are created, so that two layers may have the same name (`same_name_violation`).
* Automatic networks (C90): states called `a` and `a-embedding` clash (`clash_violation`).
* Module specifications (C93): a file in the working directory hides a keyword of the same name, also that of a default (`shadow_violation`,
  `shadow_default_violation`). The first of `objective_modules` is a `functools.partial` without `mro` (`module.py` 423-425), so that module
  paths for objectives raise `AttributeError` (`path_violation`). `LayerbasedNetwork.submodule` asserts that there are no keyword arguments
  if there is a first argument (network.py 210-211), but the name always is one, so that `l2_regularization=0.1` is rejected for layered
  networks (`network_value_violation`). A layer class in a list of layers is taken for a function (network.py 330-331,
  `layer_class_violation`). A type which is neither a string nor a class, as in `dict(type=5)`, is taken for the first argument of the
  default; `Means` follows this.
* Module paths (C94): a class with two names in its module is not found (`alias_violation`), and a module which imports the kind and a base
  class of its own class is rejected (`base_violation`).
* Training (C95): with a separate baseline whose loss is weighted, or whose objective but not its optimizer is given, the main optimizer only
  gets the variables of the policy (`tensorforce.py` 2490-2492), so that the baseline is never trained, although the documentation says that the
  main optimizer is used (`weighted_violation`); the same for a baseline without objective if advantages are switched off
  (`unused_violation`). With the advantage in the loss all trainable variables of the model are optimised, also those of preprocessing
  layers (`others_violation`). A schedule as weight is taken for an optimizer (`parameter_violation`).
* Regularization (C96): a separate baseline with weighted loss is regularized as a submodule of the model and again as part of its loss
  (`twice_violation`); variables of recurrent layers and Keras models are attributes of Keras objects and are not regularized
  (`keras_violation`).
* Outputs of networks (C89): asking for an output which no layer registered raises a KeyError (`outputs_missing_violation`, network.py 369-371).
* Summaries (C97): after an earlier state of an agent is restored, nothing is written until the counter is larger than ever before
  (`restored_violation`). Tracking (C98): the entropy of policies which are not stochastic is reported as zero
  (`never_violation`).
* Names of summaries (C99): with the advantage estimated within the loss, the summaries `update-advantage` and
  `update-processed-advantage` (tensorforce.py 2460-2478) are never registered, so that an update raises an exception if the label
  `reward` is asked for, as it is by default (`advantage_violation`).
* Directories of summaries (C100): a summary whose file name was given is removed like the others if the name starts with `summary-`
  (`named_violation`); a directory which does not contain exactly one file makes the creation of the agent fail, in one case after a
  file was removed (`files_violation`).
* Saved agents (C101): `double_dqn.py` 175 saves `agent='dqn'`, so that a Double DQN agent is loaded as a DQN agent
  (`double_violation`); `reward_processing` (all classes but `tensorforce`) and, for TRPO, `linesearch_iterations` and
  `subsampling_fraction` are not in the saved specification (`reward_violation`, `trpo_violation`); a specification which cannot
  be encoded as JSON is not saved, but that is noticed when the agent is loaded (`encodable_violation`).
* Defaults of agents (C102): the critic of DPG agents is documented as "default: none", which is "auto" (`critic_violation`); VPG, TRPO
  and PPO agents require `max_episode_timesteps`, documented as "default: not given" (`timesteps_violation`).
* Ignored arguments (C103): the advantage processing of A2C agents (a2c.py 215-220), and of VPG, TRPO and PPO agents without baseline
  (`advantage_violation`).
* Rejected arguments (C104): the documentation says that the main optimizer is used without `baseline_optimizer` (vpg.py 104-108),
  but an assertion requires one (vpg.py 230, `baseline_violation`); predicted terminal values without baseline
  (`terminal_violation`); `'labels' in summarizer` is also true for paths containing this word (tensorforce.py 331,
  `labels_violation`).
* Buffered observations (C105): a buffer larger than the update frequency is accepted if the frequency is relative to the batch size
  (`relative_violation`) or for several environments (`parallel_violation`); updates without unit or batch size raise a KeyError
  (`key_violation`).
* Preprocessing and exploration (C106): dictionaries with types as keys, which the documentation offers, are not recognized; for
  states the dictionary itself becomes a layer of every state, for actions it becomes a parameter, which raises a TypeError. An
  entry for a group of states passes the check of names and is ignored. Global exploration above one is accepted for discrete
  actions.
* Update configuration (C107): with the documented frequency "never" the initialization of the model raises an AttributeError
  (`update_frequency` is `None`). Frequencies above the batch size are rejected, a relative frequency with a changing batch size
  and a batch size without upper bound raise a TypeError, and the documented lower limit of `start` is not checked.
* Memory capacity (C108): for batches of unlimited episodes the library asks for a capacity, but comparing any given one with the
  unknown minimum raises a TypeError; with buffered timesteps the default is two times the buffer, whatever the batch size.
  Episodes as horizon with unlimited episodes raise a TypeError.
* Reward horizon (C109): a documented horizon above `max_episode_timesteps`, or a horizon parameter without upper bound if episodes
  are limited, is rejected (`long_violation`, `unlimited_parameter_violation`).
* Conversion of values (C110): `np.asarray` with the specified type converts anything, so fractional parts are dropped, `nan` becomes
  an integer and everything a truth value. Bounds for leading dimensions are accepted, but numpy aligns trailing dimensions. A
  number passes where a batch of numbers is expected.
* Outputs of environments (C111): only type and shape are checked, floats pass for integers. `TensorsSpec.np_assert` does not pass
  `batched` on, so vectorized environments with more than one state are always rejected.
* Specifications (C112): bounds of integers lose their fractional part, so a minimum of 1/2 allows zero. Equal or very close bounds
  are rejected. Bounds of different rank raise numpy's `ValueError`. A bound which is a list with one entry becomes a number in copies.
* Forms of states (C113): the names of the first dictionary of a list decide, further values of later ones are dropped. An array
  without rows is accepted for a single unnamed state.
* Experience (C114): with a dictionary of states the initial internal states are repeated along their last dimension instead of the
  batch, and expanded twice for a single time step, so they may not be left out although they are optional. Actions of a single time
  step have to be arrays. An array of states cannot go with a dictionary of actions, nor can the only action be called `action`.
  Earlier episodes stay in the memory if a later one is invalid.
* Pretraining (C115): as a consequence, traces of agents with an unnamed state and several actions or with named states and internal
  states cannot be used. Masks are not recorded; if the only state is unnamed, recording with masks fails, and a trace with masks cannot be used (`pretrain_violation`). Without trace files there
  is an `AttributeError`.
* Forms of `act` (C116): a state called like a mask is taken for the mask, so no call is accepted (`clash_violation`).
* Internal states in `act` (C117): a list of internal states given with a dictionary of arrays comes back as a dictionary
  (`mixed_violation`). Surplus internal states are ignored (`surplus_violation`), also by agents which have none.
* Interactions in `act` (C118): several time steps with the default `parallel=0` raise an `IndexError` (`default_violation`). The
  interactions are marked before the indices are converted, so that after a rejected negative index, or a list of indices with a
  single time step, `observe` is expected (`negative_violation`, `list_violation`).
* Linear normalization (C119): `output_spec` sets the new lower bound -2 while the old upper bound is still there. For states whose
  upper bound is below -2 this is an error (`negative_violation`); since the layer is the default preprocessing of bounded float states, such
  agents cannot be created without further arguments. Given bounds narrower than those of the states map some of these outside of the
  announced range (`narrow_violation`). Bounds in the wrong order raise a `TypeError`, since `TensorforceError` does not take the arguments
  it is given (`order_violation`).
* Exponential normalization (C120): a batch of `n` time steps enters by its plain mean with weight `1 - decay^n`, so that the result differs
  from that of the same time steps one by one (`batching_violation`). The variance of a batch is taken around its own mean; a single time step
  without normalized axes has none, so that the moving variance decays to zero while acting, and the outputs are divided by the root of the
  minimum variance (`variance_violation`).
* Announced ranges (C122): clipping, instance, batch and exponential normalization announce the range of their input (`clip_violation`,
  `normalized_violation`).
* Random hyperparameters (C123): a uniform integer without `maxval` announces the range from 0 to 1 and is accepted, but TensorFlow
  requires the upper bound for integers and every call raises an error (`Random.default_violation`). With `minval` equal to `maxval` it is
  announced as constant, and again every call fails (`equal_violation`); so it is for normally distributed integers (`normal_violation`).
  Any names of arguments are accepted, so that `max` instead of `maxval` leaves the range from 0 to 1 (`name_violation`).
* Ornstein-Uhlenbeck hyperparameters (C124): an absolute process with negative mean announces this mean as final value, below its announced
  minimum, although no value is ever negative (`Process.final_violation`). `theta` and `sigma` are not checked: a negative `theta` makes the
  process run away from its mean (`theta_violation`).
* Constant agent (C125): the documentation says that 0.0 is the default, but bounded float actions get the middle of their bounds, or the
  only bound (`Constant.middle_violation`). For integers this middle is a float, so that the agent cannot be created if masking is switched
  off (`int_violation`). Integer actions without number of values have no mask, but the check of the masks looks one up (`key_violation`, by
  default for every agent). Arrays as bounds fail in comparisons and `tf.fill` (`array_violation`). Values for unknown actions are ignored
  (`unknown_violation`), fractions are cut off (`fraction_violation`), and masks are not regarded for given values (`mask_violation`).
* Observe (C126): 0 is documented as terminal just as false, but a single 0 (or false of NumPy) with several rewards is refused
  (`ObserveForms.zero_violation`, `numpy_violation`). Several rewards for a single interaction other than 0 raise an IndexError
  (`index_violation`), and rewards for other than all interactions an AssertionError (`assertion_violation`).
* Observe (C127): the time step is marked as completed and counted before the limit of the episode is checked, so that the exception leaves the
  agent changed (`ObserveState.long_violation`). Buffers are emptied before their conversion, which refuses terminals other than 0, 1 and 2
  (`code_violation`) and negative interactions, which were accepted as indices before (`negative_violation`): the rewards waiting are lost.
  An interaction given twice in one call is accepted (`repeated_violation`), and counted once.
* Optimizer wrapper (C128): a learning rate is passed to every inner optimizer, so that update modifiers, `plus` and `synchronization` raise a
  TypeError; the argument `learning_rate` is ignored if the dictionary has one; the user's dictionary is changed, so that a second wrapper of the same
  dictionary gets the first one's learning rate; `multi_step <= 0` and negative `linesearch_iterations` are accepted and ignored, and 0 is accepted for
  threshold, fraction and learning rate although documented as positive.
* Clipping (C129): threshold 0 is accepted, but 0 / 0 then makes gradients or updates NaN; `gradient_norm_clipping` is documented with default
  1.0, but the default is no clipping.
* Natural gradient (C130): the multiplier is divided by the learning rate and not by its square root, so that the divergence of a step is about the
  square of the learning rate; with damping, if the Fisher product vanishes and `only_positive_updates` is off (or the learning rate is 0), the step is
  the negative solution divided by epsilon, far uphill.
* Savers (C131): the frequency is documented as required but has a default value, and 0 is accepted; negative numbers of hours keep all
  checkpoints; `Model.close` calls `save`, which writes nothing unless the frequency is reached (model.py 215-217, 310-312).
* Loading (C132): `Agent.load` of an agent whose saver is a path creates the agent first, which saves its initial state to the same directory, and
  then restores this checkpoint as the latest one (agent.py 191-210, model.py 331-335). With a saver dictionary directory and file name are
  ignored. The assertion in model.py 926 fails for directories with a slash at the end. Lines 193 and 201 of agent.py look for `load` in the
  arguments of the agent instead of those of the saver, so that the check never fails.
* ALE (C133): the documented arguments `loss_of_life_termination` and `loss_of_life_reward` do not exist; the constructor takes `life_loss_terminal`
  and `life_loss_punishment`, with opposite sign. Only positive punishments count, and not together with termination (`elif`). `self.lives` is not
  raised when a life is gained, so that its loss goes unnoticed.
* ViZDoom (C134): visualized, `advance_action` is called `frame_skip` times without checking for the end of the episode, and `get_last_reward` added
  each time. The witness is a game which keeps its last reward; the library itself is not at hand.
* PLE and OpenSim (C135): `tuple(self.environment.getGameStateDims)` lacks the call, so `states()` raises a TypeError for each game with game state;
  `OpenSim.execute` uses `self.env`, which does not exist; the documented levels `L2Run` and `Prosthetics` raise a KeyError.
* Creation of runners (C136): `evaluation=True` with a list of one environment is accepted, and no environment is left for training; if the first of
  a list of environments is vectorizable the others are dropped; environment objects are accepted with `remote='multiprocessing'`; wrong types of
  num_parallel or environments and a host without port raise TypeErrors, zero sockets an IndexError; agent classes raise a TypeError
  (`'directory' in agent`), and so do paths which contain "directory" (`Agent.load(**agent)` with a string).
* Command line (C137): without `--agent` the program fails with an AttributeError since `args.saver` does not exist; `--level` without
  `--environment` is an item assignment to `None`; directories with a comma cannot be combined with a file name; if a run ends before the number of
  episodes the rows have different lengths.
* Callbacks (C138): `sequential_callback` tests `isinstance(result, bool)` where `x` is meant, so that a callback in a list which returns nothing ends
  the run.
* Image layer (C139): the width which belongs to a small height can be rounded to zero, and the layer is rejected; grayscale for images with other
  than three channels is accepted and fails when applied; one weight for all channels and several weights for one channel are accepted; the weights of
  `rgb_to_grayscale` sum to 0.9999, so that values leave a range without zero, and given weights may have any sum, but the range of the input is
  announced.
* Embedding layer (C140): the check of `num_embeddings` is nested in `if num_embeddings is None`, so that fewer embeddings than values are accepted;
  states without `num_values` are accepted with any number of embeddings; negative sizes are taken for one.
* Variables (C141): `constant` without `initialization_scale`, `normal` for a single number and a truth value for an integer variable are not rejected
  but raise other errors (`constant_violation`, `normal_violation`, `truth_violation`). No module creates such variables.
* Self-attention (C143): the documented size 0 fails when applied, since `Linear` has removed the axis already (`size_violation`).
* Activation functions (C144): `crelu` doubles the last axis and other functions have other bounds, but `output_spec` is that of the input
  (`crelu_violation`, `announced_violation`).
* Local pooling (C146): `Pool2d` tests the length of `window` where that of `stride` is meant, so that a pair of strides with a single window is a
  TypeError, and strides of other lengths than two are accepted or raise an IndexError (`stride_violation`, `length_violation`).
* Transposed convolutions (C149): they only work if input and output have the same size, and not with an output width, see C43.
* Remote environments (C18, C19): an attribute error inside a method is swallowed, an attribute that is `None` becomes a
  function, assigning to a method calls it, and a failure of a non-blocking call is never reported
  (`attribute_error_swallowed_violation`, `none_attribute_violation`, `setting_calls_violation`,
  `failure_never_reported_violation`).
* Sockets (C20): messages of 4096 bytes or more and split reads are refused (`long_message_violation`,
  `split_read_violation`).
* Local start/receive (C46): after an exception the next call executes the old action (`after_failure_violation`).
* Nested dictionaries (C21): iteration order is not insertion order for nested paths; the singleton entry is overwritten
  although overwriting is off (`insertion_order_violation`, `singleton_overwrite_violation`).
* Argument flattening (C22): a singleton inside a singleton is refused; a missing argument takes the value of the previous
  one (`nested_singleton_violation`, `missing_argument_violation`).
* Tensor specifications (C23): the larger of two maxima is taken, disjoint ranges are unified, bounds are dropped beside
  `num_values`, scalar specifications cannot be unified, `(None,)` reverses the other shape, unification is not
  commutative, a single common value is refused (`Verif.Props.TensorSpec.*_violation`).
* Structural equality (C24): sequences of different lengths and broadcastable arrays compare equal
  (`different_length_violation`, `empty_shape_violation`, `broadcast_violation`).
* Merging (C25): equal arrays raise (`equal_array_violation`).
* `Environment.create` (C44): dropped reward shaping, dropped keyword arguments, an explicit time limit raising instead of
  overriding, a dropped `type` (`Verif.Props.Create.*_violation`).
