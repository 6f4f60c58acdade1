{"id": "C01", "title": "Memory keeps exactly the most recent experience", "statement": "After any history of accepted batches, the timesteps that can be read back from a recent/replay memory of capacity c are exactly the last min(c, total) timesteps that were handed to it, each with the values it was stored with, in the order they arrived; nothing older survives and nothing newer is lost.", "quantifier": "every capacity, every sequence of enqueue batches (with arbitrary batch sizes up to the capacity, arbitrary terminal flags) and memory resets", "why_tests_cant": "wrap-around of the circular buffer interacts with batch size, capacity and history length; only finitely many combinations can be tried", "anchors": ["tensorforce/core/memories/queue.py: Queue.enqueue, Queue.retrieve, Queue.reset"]}
{"id": "C02", "title": "Episode index of the memory is always consistent", "statement": "After any accepted history the memory's episode bookkeeping lists precisely the positions of stored episode ends, oldest first, without duplicates; in particular the episode count is the number of finished episodes that start inside the stored window as delimited by stored ends, and no update leaves a stale or missing entry.", "quantifier": "every capacity and every history of enqueue batches and resets", "why_tests_cant": "the bookkeeping is updated incrementally on overwrite, on append and on reset; an inconsistency needs a particular wrap-around history to appear", "anchors": ["tensorforce/core/memories/queue.py: Queue.enqueue, Queue.reset"]}
{"id": "C03", "title": "Recent-timestep batches only contain stored experience and are the most recent ones", "statement": "A batch of n timesteps taken from the recent memory consists of the min(n, available) most recent stored timesteps that leave room for the requested future horizon, in order, each of which has actually been written and whose past and future horizon windows lie inside the stored window.", "quantifier": "every reachable memory state, every n, every past and future horizon", "why_tests_cant": "depends on the relation between fill level, horizons and number of finished episodes; the problematic corner needs a nearly empty memory with a finished episode", "anchors": ["tensorforce/core/memories/recent.py: Recent.retrieve_timesteps"]}
{"id": "C04", "title": "Episode batches contain whole episodes", "statement": "A batch of n episodes from the recent memory is exactly the concatenation of the timesteps of the min(n, stored) most recently finished episodes: it starts right after an episode end, finishes with an episode end, contains no timestep of any unfinished or partially overwritten episode, and holds exactly that many episode ends.", "quantifier": "every reachable memory state and every n", "why_tests_cant": "wrap-around of the episode interval and overwritten episode starts depend on the full history", "anchors": ["tensorforce/core/memories/recent.py: Recent.retrieve_episodes", "tensorforce/core/memories/replay.py: Replay.retrieve_episodes"]}
{"id": "C05", "title": "Replay sampling only returns stored experience", "statement": "Whatever the random source yields, every timestep index sampled by the replay memory refers to a timestep that is currently stored and whose required past and future horizons are stored too.", "quantifier": "every reachable memory state, every n and horizons, every outcome of the random generator in its documented range", "why_tests_cant": "needs all random outcomes in all memory states", "anchors": ["tensorforce/core/memories/replay.py: Replay.retrieve_timesteps, Replay.retrieve_episodes"]}
{"id": "C06", "title": "History look-back never crosses an episode boundary", "statement": "Looking back over a horizon h from a stored timestep returns exactly the timestep itself together with its min(h, position in episode) predecessors, oldest first: never a timestep of an earlier episode, and never fewer predecessors than available.", "quantifier": "every reachable memory state, every start index, every horizon", "why_tests_cant": "depends on where the circular buffer wraps and where terminals lie", "anchors": ["tensorforce/core/memories/queue.py: Queue.predecessors"]}
{"id": "C07", "title": "Look-ahead never crosses an episode boundary", "statement": "Looking ahead over a horizon h from a stored timestep returns exactly the timestep and its following min(h, remaining) successors in the same episode and stops at the first episode end or at the most recently written timestep; the reported final timestep is the last of those.", "quantifier": "every reachable memory state, every start index, every horizon", "why_tests_cant": "depends on where the circular buffer wraps and where terminals and the write head lie", "anchors": ["tensorforce/core/memories/queue.py: Queue.successors"]}
{"id": "C08", "title": "Rewards-to-go are independent of how observations were batched", "statement": "The sequence of (timestep, estimated return) pairs that reaches the memory for an episode is the same for every way of splitting the episode's rewards into observe calls and regardless of whether returns are computed incrementally in the circular buffer, iteratively or in parallel at the end of the episode, and equals the textbook truncated discounted return sum_{k<h} gamma^k r_{t+k} cut at the end of the episode.", "quantifier": "every reward sequence, every discount, every return horizon, every partition of the episode into observe calls", "why_tests_cant": "infinite family of partitions; three separate implementations must agree", "anchors": ["tensorforce/core/models/tensorforce.py: TensorforceModel.core_observe, _nonterminal_experience, _terminal_experience_iterative, _terminal_experience_parallel"]}
{"id": "C09", "title": "Experience is handed over exactly once and never overwritten early", "statement": "Every observed timestep of a finished episode is handed to the memory exactly once and in order, and the experience ring buffer never overwrites a timestep that has not been handed over.", "quantifier": "every history of act/observe calls in the supported configurations", "why_tests_cant": "depends on the interleaving of buffer wrap-around and hand-over over unbounded histories", "anchors": ["tensorforce/core/models/tensorforce.py: TensorforceModel.core_act, core_observe, _nonterminal_experience"]}
{"id": "C10", "title": "Aborted episodes keep their rewards", "statement": "When an episode is aborted (terminal 2) the stored return of each of its timesteps counts every reward received within the horizon, including the last one.", "quantifier": "every reward sequence and discount in [0,1], with or without horizon-value prediction", "why_tests_cant": "needs all reward sequences and the edge discount 0", "anchors": ["tensorforce/core/models/tensorforce.py: TensorforceModel._terminal_experience_iterative, _terminal_experience_parallel"]}
{"id": "C11", "title": "Generalized advantage estimation does not leak across episodes", "statement": "The generalized advantage of every timestep in a batch is the (gamma*lambda)-discounted sum of the temporal-difference terms up to the end of its own episode, and is unaffected by any timestep of another episode in the batch.", "quantifier": "every batch, every placement of episode ends, every discount and lambda", "why_tests_cant": "arbitrary batch compositions", "anchors": ["tensorforce/core/models/tensorforce.py: TensorforceModel.core_update (advantage processing)"]}
{"id": "C12", "title": "Episode-based update schedule", "statement": "With update unit 'episodes', frequency f and start s, the model updates after exactly the episodes number max(s,f), max(s,f)+f, max(s,f)+2f, ... and at no other time.", "quantifier": "every f >= 1, every s, every history of observe calls", "why_tests_cant": "unbounded histories", "anchors": ["tensorforce/core/models/tensorforce.py: TensorforceModel.core_observe (update schedule)"]}
{"id": "C13", "title": "Timestep-based update schedule", "statement": "With update unit 'timesteps', frequency f and start s, no update happens before the configured start, two consecutive updates are at least f timesteps apart, and an update happens as soon as both conditions allow.", "quantifier": "every f >= 1, s, horizon and history of observe calls", "why_tests_cant": "the effective start depends on whether an episode has finished; only particular histories expose it", "anchors": ["tensorforce/core/models/tensorforce.py: TensorforceModel.core_observe (update schedule)"]}
{"id": "C14", "title": "act and observe strictly alternate", "statement": "For every parallel interaction, an accepted call history of Agent.act/Agent.observe alternates act, observe, act, observe, ...; any other call is rejected with an error and counters (timesteps, episodes, updates) advance only by accepted calls, timesteps by one per accepted act and episodes by one per accepted terminal.", "quantifier": "every number of parallel interactions and every call history including rejected calls", "why_tests_cant": "call histories are unbounded and rejected calls must not corrupt later ones", "anchors": ["tensorforce/agents/recorder.py: Recorder.act, Recorder.observe", "tensorforce/agents/agent.py: Agent.observe"]}
{"id": "C15", "title": "Buffered observation loses nothing", "statement": "Whatever the observation buffer size (k steps or whole episodes), the concatenation of the batches of (terminal, reward) flushed to the model plus the content of the buffer equals the sequence observed so far, per parallel interaction; batches never contain a terminal except as their last element and are flushed at every terminal.", "quantifier": "every buffer size, number of parallel interactions, reward/terminal history", "why_tests_cant": "unbounded histories and interleavings of parallel interactions", "anchors": ["tensorforce/agents/agent.py: Agent.observe"]}
{"id": "C16", "title": "Recorded traces are complete, aligned episodes", "statement": "Each trace file written by the recorder contains, for each of its episodes, as many states, actions, terminals and rewards, aligned by timestep, and consists of whole episodes; with frequency f the k-th file covers f consecutive episodes and is named after the last of them.", "quantifier": "every configuration (frequency, start), number of parallel interactions and call history", "why_tests_cant": "interleavings of parallel interactions around the recording start are unbounded", "anchors": ["tensorforce/agents/recorder.py: Recorder.act, Recorder.observe"]}
{"id": "C17", "title": "Episode length limit is enforced", "statement": "An environment created with max_episode_timesteps=m never lets an episode run for more than m steps: the step number m is reported as abort (terminal 2) unless the environment itself terminates, steps before it are never turned into aborts, and executing past the end of an episode raises.", "quantifier": "every environment behaviour, every m, every call history", "why_tests_cant": "environment behaviours and histories are unbounded", "anchors": ["tensorforce/environments/environment.py: EnvironmentWrapper.reset, EnvironmentWrapper.execute"]}
{"id": "C18", "title": "Remote environments answer each request with its own result", "statement": "Through a remote environment every call that returns normally returns the result of the very call that was made, on the environment state produced by all previous calls in order; a failure of the remote side surfaces as an exception and never as the result of a later call.", "quantifier": "every environment behaviour and every sequence of calls, including failing ones and attribute accesses", "why_tests_cant": "histories with failures at every point", "anchors": ["tensorforce/environments/environment.py: RemoteEnvironment.remote, send, receive, __getattr__, close"]}
{"id": "C19", "title": "Non-blocking execution reports failures", "statement": "With non-blocking remote execution, polling a started reset/execute eventually yields its result or raises; a failure of the remote environment is not silently swallowed.", "quantifier": "every environment behaviour and polling schedule", "why_tests_cant": "needs all poll/thread interleavings including failing calls", "anchors": ["tensorforce/environments/environment.py: RemoteEnvironment.start_reset, finish_reset, start_execute, receive_execute"]}
{"id": "C20", "title": "Socket framing round-trip", "statement": "Any message sent through the socket environment is received unchanged, whatever its length and however the connection splits it into chunks, and consecutive messages do not run into each other.", "quantifier": "every message sequence, every chunking of the byte stream", "why_tests_cant": "unbounded lengths and chunkings", "anchors": ["tensorforce/environments/socket_environment.py: SocketEnvironment.proxy_send, proxy_receive, remote_send, remote_receive"]}
{"id": "C21", "title": "Nested dictionaries behave like flat maps with path keys", "statement": "A nested dictionary behaves like a map from slash-separated paths to values: after storing a value at a path, reading that path yields it, all other unrelated paths are unchanged, membership and length agree with iteration, and iteration order is insertion order.", "quantifier": "every sequence of operations, every path depth", "why_tests_cant": "unbounded nestings and operation sequences", "anchors": ["tensorforce/core/utils/nested_dict.py: NestedDict.__setitem__, __getitem__, __contains__, __len__, items, pop, update"]}
{"id": "C22", "title": "Argument flattening is invertible", "statement": "Flattening nested keyword arguments according to a signature and rebuilding them with the same signature returns the original nested arguments, for every signature, including empty sub-dictionaries and singletons.", "quantifier": "every nested signature and matching arguments", "why_tests_cant": "unbounded nesting", "anchors": ["tensorforce/core/utils/dicts.py: SignatureDict.kwargs_to_args, args_to_kwargs, num_args"]}
{"id": "C23", "title": "Unifying value specifications yields their intersection", "statement": "If two tensor specifications can be unified, a value satisfies the unified specification exactly if it satisfies both; unification is commutative, idempotent, and raises if no value could satisfy both.", "quantifier": "every pair of specifications and every value", "why_tests_cant": "specification space is unbounded", "anchors": ["tensorforce/core/utils/tensor_spec.py: TensorSpec.unify, TensorSpec.np_assert"]}
{"id": "C24", "title": "Specification equality check distinguishes different specifications", "statement": "The structural comparison used to check that environments match the agent and each other returns true only for equal specifications.", "quantifier": "all pairs of nested specifications", "why_tests_cant": "unbounded nestings", "anchors": ["tensorforce/util.py: is_equal", "tensorforce/execution/runner.py: Runner.__init__"]}
{"id": "C25", "title": "Configuration merging never silently overrides", "statement": "Merging a module configuration into keyword arguments keeps every setting of both sides; a conflicting setting raises instead of being overridden, equal settings are accepted, and nested dictionaries are merged recursively.", "quantifier": "all nested configurations", "why_tests_cant": "unbounded nestings", "anchors": ["tensorforce/util.py: deep_disjoint_update", "tensorforce/core/module.py: Module.get_module_class_and_args"]}
{"id": "C26", "title": "Masked exploration only picks valid actions", "statement": "With action masking every explored/random integer action is one of those allowed by the mask, every allowed action can be chosen, and unmasked bounded exploration stays within its bounds and can reach every action.", "quantifier": "every mask with at least one valid action per row, every random outcome in [0,1)", "why_tests_cant": "continuum of random outcomes and all masks", "anchors": ["tensorforce/core/models/tensorforce.py: TensorforceModel.core_act (exploration)", "tensorforce/core/models/random.py: RandomModel.core_act"]}
{"id": "C27", "title": "Sequence preprocessing stacks the last observations of the same episode", "statement": "After preprocessing with sequence length L, the t-th state of an episode is the stack of its last L observations (the first one repeated when fewer exist), independent of earlier episodes and of other concurrently running episodes.", "quantifier": "every L, every history of episodes and interleavings", "why_tests_cant": "unbounded histories and interleavings", "anchors": ["tensorforce/core/layers/preprocessing.py: Sequence.apply, Sequence.reset", "tensorforce/core/networks/preprocessor.py: Preprocessor.reset"]}
{"id": "C28", "title": "Delta preprocessing yields in-episode differences", "statement": "With delta preprocessing the first state of an episode maps to zero and every later one to its difference to the previous observation of the same episode, so that deltas telescope; the first state after an episode end never sees the previous episode.", "quantifier": "every history of episodes and interleavings", "why_tests_cant": "unbounded histories and interleavings", "anchors": ["tensorforce/core/layers/preprocessing.py: Deltafier.apply, Deltafier.reset"]}
{"id": "C29", "title": "Decaying hyperparameters stay within their announced range", "statement": "At every step a decaying hyperparameter lies between the minimum and the maximum it announces, starts at its initial value, and the announced final value is its limit; a hyperparameter announced as constant is constant.", "quantifier": "every decay type with exact arithmetic, every step, every configuration", "why_tests_cant": "unbounded steps and real-valued configurations", "anchors": ["tensorforce/core/parameters/decaying.py: Decaying.min_value, max_value, final_value, parameter_value"]}
{"id": "C30", "title": "Linear decay reaches its final value after num_steps", "statement": "A linear hyperparameter equals its initial value at step 0, moves monotonically towards the final value, equals it from step num_steps on, and never overshoots.", "quantifier": "every initial/final value, num_steps and step", "why_tests_cant": "unbounded steps", "anchors": ["tensorforce/core/parameters/linear.py: Linear", "tensorforce/core/parameters/decaying.py: Decaying.parameter_value"]}
{"id": "C31", "title": "Piecewise-constant schedule", "statement": "A piecewise-constant hyperparameter takes the i-th value exactly between the (i-1)-th and i-th boundary.", "quantifier": "every increasing boundary list, values and step", "why_tests_cant": "unbounded lists and steps", "anchors": ["tensorforce/core/parameters/piecewise_constant.py: PiecewiseConstant.parameter_value"]}
{"id": "C32", "title": "Reported optimizer step equals the actual parameter change", "statement": "For every nesting of update modifiers (multi-step, clipping, subsampling, line search, double-check, combination of optimizers, global optimizer) the step returned equals the actual change of the trainable variables, provided this holds for the innermost optimizers.", "quantifier": "every modifier stack, every loss function, every inner optimizer", "why_tests_cant": "unbounded nesting; arbitrary loss functions", "anchors": ["tensorforce/core/optimizers/multi_step.py", "tensorforce/core/optimizers/clipping_step.py", "tensorforce/core/optimizers/subsampling_step.py", "tensorforce/core/optimizers/linesearch_step.py", "tensorforce/core/optimizers/doublecheck_step.py", "tensorforce/core/optimizers/plus.py", "tensorforce/core/optimizers/global_optimizer.py", "tensorforce/core/optimizers/evolutionary.py", "tensorforce/core/optimizers/natural_gradient.py"]}
{"id": "C33", "title": "Double-checked updates never increase the loss", "statement": "With double-checked updates the loss after a step is strictly smaller than before or the variables are exactly as before.", "quantifier": "every loss and inner optimizer", "why_tests_cant": "arbitrary functions", "anchors": ["tensorforce/core/optimizers/doublecheck_step.py: DoublecheckStep.step"]}
{"id": "C34", "title": "Line search never ends worse than its full step", "statement": "The step kept by the line search is a backtracking multiple factor^k of the full step with k at most the iteration limit, its loss is no larger than that of the full step and no larger than that of any other multiple tried before the last one, and the variables end exactly at the start plus the kept step.", "quantifier": "every loss function, step, factor and iteration limit", "why_tests_cant": "arbitrary functions and iteration counts", "anchors": ["tensorforce/core/optimizers/linesearch_step.py: LinesearchStep.step", "tensorforce/core/optimizers/solvers/line_search.py: LineSearch.start, step, end", "tensorforce/core/optimizers/solvers/iterative.py: Iterative.solve"]}
{"id": "C35", "title": "Target network synchronisation schedule", "statement": "With frequency f the target variables are synchronised on updates 1, 1+f, 1+2f, ... and unchanged on all others; with weight 1 they equal the source afterwards, otherwise they move by the weighted difference.", "quantifier": "every f >= 1, weight, and sequence of source values", "why_tests_cant": "unbounded histories", "anchors": ["tensorforce/core/optimizers/synchronization.py: Synchronization.step"]}
{"id": "C36", "title": "Subsampling keeps sequences intact", "statement": "Subsampling a batch keeps, for each selected timestep, its own complete history window, re-indexed contiguously and in order, so that every selected timestep sees exactly the history states it had in the full batch.", "quantifier": "every batch, horizon table and selected index list", "why_tests_cant": "unbounded batches", "anchors": ["tensorforce/core/optimizers/subsampling_step.py: SubsamplingStep.step"]}
{"id": "C37", "title": "Conjugate gradient residual invariant", "statement": "Throughout the conjugate gradient solver the tracked residual equals b - (A + damping I) x for the current x, so that the solver's stopping test refers to the true residual.", "quantifier": "every symmetric or non-symmetric linear operator A, right-hand side, damping and iteration count", "why_tests_cant": "arbitrary operators and iteration counts", "anchors": ["tensorforce/core/optimizers/solvers/conjugate_gradient.py: ConjugateGradient.start, step"]}
{"id": "C38", "title": "Runner executes the requested number of episodes/timesteps", "statement": "A run with num_episodes=N on one environment stops after exactly N episodes, with every episode properly reset, executed and observed until its end; a run with num_timesteps or num_updates terminates once the limit is reached.", "quantifier": "every environment behaviour, number of environments and synchronisation mode", "why_tests_cant": "unbounded histories and interleavings", "anchors": ["tensorforce/execution/runner.py: Runner.run, handle_terminal, handle_observe, handle_act"]}
{"id": "C39", "title": "Best-agent saving keeps the best evaluation", "statement": "With save_best_agent, after every evaluation the best evaluation score seen so far belongs to the saved agent.", "quantifier": "every sequence of evaluation scores", "why_tests_cant": "unbounded sequences", "anchors": ["tensorforce/execution/runner.py: Runner.handle_terminal_evaluation"]}
{"id": "C40", "title": "Restoring picks the most recent checkpoint", "statement": "Agent.restore/Agent.load without explicit filename restores the most recently numbered save of the given base name, for every supported format and every set of saves present, and ignores unrelated files.", "quantifier": "every directory content", "why_tests_cant": "unbounded directory contents", "anchors": ["tensorforce/agents/agent.py: Agent.restore"]}
{"id": "C41", "title": "Variable export/import round-trip", "statement": "Saving the model as a name-indexed archive (numpy/hdf5) and restoring it into a model with the same variables returns every variable to its saved value.", "quantifier": "every list of variables and values", "why_tests_cant": "all naming schemes and values", "anchors": ["tensorforce/core/models/model.py: Model.save, Model.restore"]}
{"id": "C42", "title": "Temporal layers process exactly the in-episode window", "statement": "A temporal (recurrent) layer with horizon h applied to a batch of history windows folds its cell over exactly the last min(h+1, length) inputs of each window in order, also when the supplied windows are longer than needed, without failing its internal consistency check.", "quantifier": "every batch of windows, horizon and cell function", "why_tests_cant": "unbounded windows and arbitrary cells", "anchors": ["tensorforce/core/layers/layer.py: TemporalLayer.apply, iterative_body"]}
{"id": "C43", "title": "Declared layer output shapes match the computed tensors", "statement": "The output shape a reshape, flatten/pooling, convolution or tensor-retrieval layer announces equals the shape of the tensor it computes, or construction fails.", "quantifier": "every input shape and layer configuration", "why_tests_cant": "unbounded shapes", "anchors": ["tensorforce/core/layers/misc.py: Reshape.output_spec", "tensorforce/core/layers/pooling.py", "tensorforce/core/layers/convolution.py", "tensorforce/core/layers/layer.py: Retrieve.output_spec"]}
{"id": "C44", "title": "Environment.create resolves specifications consistently", "statement": "Environment.create either returns an environment honouring every supplied argument (time limit, reward shaping, keyword arguments) or raises; an explicitly given time limit overrides the one in the specification.", "quantifier": "every combination of specification kinds and arguments", "why_tests_cant": "combinatorial argument space with nesting", "anchors": ["tensorforce/environments/environment.py: Environment.create"]}
{"id": "C45", "title": "Bootstrapped and TD(lambda) returns do not depend on batching", "statement": "With early value prediction (optionally with trace decay lambda) the return stored for every timestep is the truncated lambda-return of its own episode: rewards up to the horizon discounted, continued with the value estimate of the state reached, the final reward replaced by the value estimate when the episode is aborted or terminal values are predicted; it is the same for every partition of the episode into observe calls and for every buffering mode.", "quantifier": "every buffering mode, horizon, discount > 0, lambda, value function, episode and partition into observe calls", "why_tests_cant": "three separately written code paths (continuation, iterative, vectorised) must compute the same number for all lengths, horizons and chunkings", "anchors": ["tensorforce/core/models/tensorforce.py: core_observe, _nonterminal_experience, _terminal_experience_iterative, _terminal_experience_parallel"]}
{"id": "C46", "title": "Start/receive on a local environment equals direct calls", "statement": "For an in-process environment, start_reset or start_execute followed by receive_execute returns exactly what reset or execute would have returned; starting twice or receiving without start raises; and after an error of the environment the pair is usable again after a reset.", "quantifier": "every environment behaviour and every sequence of calls, including failing ones", "why_tests_cant": "needs all histories with failures at every point", "anchors": ["tensorforce/environments/environment.py: Environment.start_reset, start_execute, receive_execute"]}
{"id": "C47", "title": "The trace directory holds exactly the newest traces", "statement": "With max-traces m the recorder's directory contains, after every call, exactly the m most recently written trace files (all of them while fewer than m have been written); without max-traces it contains all of them.", "quantifier": "every m, every call history", "why_tests_cant": "needs arbitrarily many episodes and every m including the smallest", "anchors": ["tensorforce/agents/recorder.py: Recorder.observe"]}
{"id": "C48", "title": "Loading finds the saved agent specification", "statement": "Agent.load with the base name, or the name of any file that Agent.save wrote for it (with or without appended number and extension), reads the specification file written by that save.", "quantifier": "every base name, appended number, extension and directory content", "why_tests_cant": "all names and directory contents", "anchors": ["tensorforce/agents/agent.py: Agent.load, Agent.save"]}
{"id": "C49", "title": "Transformation layers apply each step exactly once", "statement": "A transformation layer (dense, convolution, embedding, recurrent or attention layer) applies to the result of its operation its bias, the removal of the last axis for size 0, its activation and its dropout, each exactly once if configured, and in this order.", "quantifier": "every layer type and every combination of size, bias, activation and dropout", "why_tests_cant": "Tests use default arguments and check that agents run, not the values a layer computes; applying a bias (initially zero) or tanh twice goes unnoticed.", "anchors": ["tensorforce/core/layers/layer.py:829-843", "tensorforce/core/layers/rnn.py:155-158", "tensorforce/core/layers/dense.py:104-107", "tensorforce/core/layers/attention.py:50-137"]}
{"id": "C50", "title": "A graph function runs the graph built for its parameters", "statement": "Calling a graph function of a module with parameters that are not tensors runs the graph that was built for these parameters: two calls whose parameters differ, by name or value, never share a graph, and two calls with the same parameters share one.", "quantifier": "every sequence of calls and all parameter names, orders and values", "why_tests_cant": "Tests call each function with a fixed set of parameters; a wrong graph runs without an error and computes something else.", "anchors": ["tensorforce/core/module.py:29-43", "tensorforce/core/module.py:46-146"]}
{"id": "C51", "title": "The runner makes every call when it is due", "statement": "In a run every environment, training or evaluation, is reset only at the start and after its episode has ended, executes only an action just decided for it, and the agent is asked for an action only after a reset or while the episode goes on. The agent observes exactly the terminal code the environment answered, or an abort (2) in its place, and an abort only if a limit of timesteps or updates has been reached or the callback has returned false; once such a limit has been reached no episode goes on. When the run is over, the last episode of every environment has ended.", "quantifier": "every number of environments, every synchronization and batching mode, every limit, and every behaviour of environments, agent and callback", "why_tests_cant": "Runner tests run a handful of episodes and look at rewards; the order of calls per environment, which depends on which environments happen to answer, is not recorded.", "anchors": ["tensorforce/execution/runner.py:514-907"]}
{"id": "C52", "title": "Every action of a policy lies in its action space", "statement": "Every action a policy with parametrized distributions gives, deterministic or sampled at any temperature, belongs to the action's specification: a boolean, an integer below num_values which the mask allows, or a float within min_value and max_value.", "quantifier": "all network outputs, random numbers, temperatures, masks with an allowed value, bounds and distributions", "why_tests_cant": "A forbidden action needs rare network outputs, random numbers or action spaces; tests sample a few actions from untrained networks.", "anchors": ["tensorforce/core/policies/parametrized_distributions.py:172-238", "tensorforce/core/distributions/categorical.py:171-373", "tensorforce/core/distributions/gaussian.py:143-311", "tensorforce/core/distributions/beta.py:105-222"]}
{"id": "C53", "title": "Temperature zero means deterministic actions", "statement": "A policy whose sampling temperatures are zero (below 1e-6) gives, when it samples, exactly the actions it gives deterministically, whatever the random numbers.", "quantifier": "all four distributions, all network outputs, masks and random numbers, any number of actions", "why_tests_cant": "Tests compare single runs; agreement for all random numbers cannot be tested.", "anchors": ["tensorforce/core/distributions/bernoulli.py:166-185", "tensorforce/core/distributions/categorical.py:348-373", "tensorforce/core/distributions/gaussian.py:274-311", "tensorforce/core/distributions/beta.py:204-222", "tensorforce/core/policies/parametrized_distributions.py:172-238"]}
{"id": "C54", "title": "The default sampling temperature is 1.0", "statement": "An action for which no sampling temperature is given is sampled with the documented default temperature 1.0, also if temperatures are given for other actions.", "quantifier": "all temperature arguments and action names", "why_tests_cant": "An action sampled with temperature 0 runs without an error; that it never explores is not noticed.", "anchors": ["tensorforce/core/policies/stochastic_policy.py:28-29", "tensorforce/core/policies/stochastic_policy.py:53-74"]}
{"id": "C55", "title": "Bounded float actions: every action can be sampled, and the log-probability undoes the transformation", "statement": "Every float action strictly within its bounds is given for some random number, whatever the network outputs and at every temperature of at least 1e-6. The log-probability is computed from a value which the transformation to the bounds maps to the action, and contains the logarithm of the derivative of tanh.", "quantifier": "all bounds, transformations, network outputs, temperatures and actions", "why_tests_cant": "Reachability of every action and an inverse for every action are statements about a continuum.", "anchors": ["tensorforce/core/distributions/gaussian.py:213-344", "tensorforce/core/distributions/beta.py:161-237"]}
{"id": "C56", "title": "There is a default distribution for every action specification", "statement": "A policy with default arguments can be constructed for every valid action specification, with a distribution suited to it.", "quantifier": "all action types and bounds, with and without use_beta_distribution", "why_tests_cant": "Tests use the specifications of a few environments; float actions with one bound do not occur.", "anchors": ["tensorforce/core/policies/parametrized_distributions.py:85-130", "tensorforce/core/distributions/gaussian.py:63-79", "tensorforce/core/distributions/beta.py:35-40"]}
{"id": "C57", "title": "Discrete distributions: probabilities, masks and the most probable action", "statement": "The probabilities of a boolean or integer action are not negative and add up to one, a masked value has a probability below 1e-6, the deterministic action is one of the most probable ones, and the log-probability of an action is the logarithm of its probability up to the stability constant 1e-6 added to it.", "quantifier": "all network outputs, masks with an allowed value, with and without temperature output", "why_tests_cant": "A statement about all real network outputs; tests only check that training runs.", "anchors": ["tensorforce/core/distributions/bernoulli.py:91-191", "tensorforce/core/distributions/categorical.py:171-382"]}
{"id": "C58", "title": "Divergence and entropy have their mathematical bounds", "statement": "The KL divergence of two distributions of an action is never negative and is zero if they are equal; the entropy of a discrete action is between zero and the logarithm of its number of values.", "quantifier": "all network outputs, masks and all distributions", "why_tests_cant": "Sign and size of the effect of stability constants depend on the values; tests do not look at these numbers.", "anchors": ["tensorforce/core/distributions/bernoulli.py:193-215", "tensorforce/core/distributions/categorical.py:384-397", "tensorforce/core/distributions/gaussian.py:346-369", "tensorforce/core/distributions/beta.py:239-273"]}
{"id": "C59", "title": "A value policy acts greedily, and its state value is the value of its action", "statement": "In every state value mode a parametrized value policy takes an allowed action with the greatest action value of all allowed ones, its state value is the action value of the actions it takes, and with separate state values the action values of every action have the state value as their mean.", "quantifier": "all network outputs, masks with an allowed value, numbers and types of actions, all three state value modes", "why_tests_cant": "Tests check that agents with these modes run for some episodes, not the values.", "anchors": ["tensorforce/core/policies/parametrized_value_policy.py:123-147", "tensorforce/core/policies/parametrized_value_policy.py:224-593", "tensorforce/core/policies/value_policy.py:111-138"]}
{"id": "C60", "title": "Log-probabilities of float actions are logarithms of densities", "statement": "The log-probability of a float action is the logarithm of the probability density with which the action is sampled at temperature 1, up to stability constants of 1e-6 and the constant width of the bounds: a normal density, transformed by tanh if configured, or a beta density with the same parameters in the same order as in sampling.", "quantifier": "all network outputs, bounds and actions within them", "why_tests_cant": "A swapped parameter, a wrong sign or a missing factor gives plausible numbers, and training merely gets worse.", "anchors": ["tensorforce/core/distributions/gaussian.py:143-185", "tensorforce/core/distributions/gaussian.py:274-344", "tensorforce/core/distributions/beta.py:105-134", "tensorforce/core/distributions/beta.py:204-237"]}
{"id": "C61", "title": "The value loss measures the distance of the estimate from the target", "statement": "For every accepted configuration the loss of a value objective is defined and never negative, it is zero exactly if every estimate equals the target reward, and its derivative with respect to an estimate is the difference from the target, limited to the Huber threshold if there is one.", "quantifier": "all estimates, rewards, accepted thresholds and action shapes, per action and aggregated", "why_tests_cant": "The two branches of the Huber loss must agree in value and slope at the threshold for all thresholds; tests only run updates.", "anchors": ["tensorforce/core/objectives/value.py:43-63", "tensorforce/core/objectives/value.py:108-164"]}
{"id": "C62", "title": "Clipping of the policy gradient objective", "statement": "With a clipping value c > 0 the loss of an instance is the same as without clipping if each log-probability differs from its reference by at most the factor 1 + c in probability, it is never less than without clipping, and a log-probability beyond this range in the direction the reward asks for has no further effect. A greater probability of an action with positive reward never increases the loss, and one with negative reward never decreases it. At the reference the derivative of the loss with respect to the log-probability is minus the reward in every configuration.", "quantifier": "all log-probabilities, references, rewards and clipping values c > 0, with and without importance sampling, per action and aggregated", "why_tests_cant": "Minimum and clipping interact with the sign of the reward; a wrong bound or sign changes training gradually and is not visible in short test runs.", "anchors": ["tensorforce/core/objectives/policy_gradient.py:79-152", "tensorforce/core/policies/stochastic_policy.py:205-218"]}
{"id": "C63", "title": "Sums of objectives keep the references apart", "statement": "However objectives are nested with 'plus', the reference has the declared size, every single objective gets in the loss exactly the reference it computed itself, and the loss is the sum of the single losses.", "quantifier": "all nestings of all objectives, action shapes and instances", "why_tests_cant": "References of different sizes are concatenated and cut apart again; a wrong offset gives numbers of the right shape. Tests have one sum of two objectives.", "anchors": ["tensorforce/core/objectives/plus.py:77-137", "tensorforce/core/objectives/policy_gradient.py:70-101", "tensorforce/core/objectives/value.py:71-106", "tensorforce/core/objectives/deterministic_policy_gradient.py:57-69"]}
{"id": "C64", "title": "Policy and baseline have all functions which are called", "statement": "If the constructor accepts a configuration with default policy types, then the policy and the baseline have every function which acting, predictions and the losses of the configured objectives call.", "quantifier": "all objectives and their sums, with and without baseline, baseline objective and baseline optimizer or weight, all reward estimation settings and action types", "why_tests_cant": "A missing function is an error only at the first update of a particular combination of arguments; there are too many combinations to run.", "anchors": ["tensorforce/core/models/tensorforce.py:254-463", "tensorforce/core/models/tensorforce.py:2271-2328", "tensorforce/core/models/tensorforce.py:2820-2932", "tensorforce/core/policies/parametrized_action_value.py:74-89", "tensorforce/agents/tensorforce.py:145-159"]}
{"id": "C65", "title": "The default type of a baseline depends on what is required of the baseline", "statement": "The default type of a separate baseline is chosen by the functions which predictions, the objective and the baseline objective require of the baseline, and not by what is required of the policy.", "quantifier": "all configurations with a separate baseline", "why_tests_cant": "A baseline of a more general type works as well, only differently; the difference is not visible to a test that checks that training runs.", "anchors": ["tensorforce/core/models/tensorforce.py:360-387", "tensorforce/core/models/tensorforce.py:405-435"]}
{"id": "C66", "title": "Counters, statistics and internal states of a session depend on each interaction's own running episode", "statement": "After any sequence of act, independent act, observe and reset calls, timesteps, episodes and updates are the numbers of actions given, of terminals observed and of updates performed. Length and return of each parallel interaction are those of the rewards observed since its last terminal, and its internal state is what the network computes, from the initial internal state, from the states seen since its last terminal. Independent acting changes nothing, and repeating an episode independently gives the same actions.", "quantifier": "all networks, numbers of parallel interactions and sequences of calls", "why_tests_cant": "Mixing up interactions or forgetting a reset of one of them shows only for particular interleavings of several parallel episodes.", "anchors": ["tensorforce/core/models/model.py:514-568", "tensorforce/core/models/model.py:570-646", "tensorforce/core/models/model.py:648-776"]}
{"id": "C67", "title": "A reset discards running episodes", "statement": "After Agent.reset, as after saving and restoring an agent, all parallel interactions are at the start of an episode: length and return are zero and the internal state is the initial one, while the counters keep their values.", "quantifier": "all sequences of calls before the reset", "why_tests_cant": "Statistics and internal states left over from a discarded episode change later results without raising anything.", "anchors": ["tensorforce/agents/agent.py:332-352", "tensorforce/core/models/model.py:507-512", "tensorforce/core/models/tensorforce.py:930-941"]}
{"id": "C68", "title": "Acting with variable noise leaves the variables unchanged", "statement": "After every act the variables of the policy are what they were before, with any variable noise, whether the act succeeds or not. The act itself uses the variables plus noise of the current standard deviation, of the final one if independent, and no noise if deterministic.", "quantifier": "all variables, noise parameters, random numbers and flags", "why_tests_cant": "A drift of the variables by noise not taken back cannot be told from training, and no test compares variables around an act.", "anchors": ["tensorforce/core/models/tensorforce.py:1066-1154"]}
{"id": "C69", "title": "Sampled actions are distributed as the log-probability says", "statement": "At temperature 1 the action which a distribution samples from ideal random numbers has the distribution whose log-probability it reports, up to the stability constant 1e-6: every integer and boolean value with its probability, float actions with the reported density.", "quantifier": "all network outputs, masks and bounds, all distributions", "why_tests_cant": "A wrong sign or a wrong logarithm in the sampling formula still gives plausible random actions; a test would need a statistical comparison for all network outputs.", "anchors": ["tensorforce/core/distributions/categorical.py:348-382", "tensorforce/core/distributions/bernoulli.py:166-191", "tensorforce/core/distributions/gaussian.py:274-344", "tensorforce/core/distributions/beta.py:204-237"]}
{"id": "C70", "title": "Action value, state value and log-probability of a distribution agree", "statement": "For every distribution which has action and state values, the difference of action value and state value is the temperature of the distribution times the log-probability of the action, up to the stability constant 1e-6.", "quantifier": "all network outputs, masks, bounds, actions allowed by them, with and without temperature output", "why_tests_cant": "A missing term gives plausible values, and training merely gets worse.", "anchors": ["tensorforce/core/distributions/bernoulli.py:91-225", "tensorforce/core/distributions/categorical.py:171-260", "tensorforce/core/distributions/categorical.py:375-411", "tensorforce/core/distributions/gaussian.py:313-414"]}
{"id": "C71", "title": "Baseline and reward estimation have the documented defaults", "statement": "Settings of the reward estimation which are not given have the documented defaults: horizon values are predicted late if a baseline or a baseline objective is given and not otherwise, advantages are estimated only if a baseline without objective and optimizer is given, and a baseline objective without optimizer has weight 1. Predictions come from the baseline if there is a separate one and from the policy otherwise. Negative weights, late predictions with the horizon 'episode' and objectives which the actions do not allow are rejected.", "quantifier": "all configurations of objective, baseline, baseline objective, baseline optimizer and reward estimation", "why_tests_cant": "A different default changes what is learnt, not whether training runs; there are too many combinations of arguments.", "anchors": ["tensorforce/agents/tensorforce.py:100-160", "tensorforce/core/models/tensorforce.py:161-185", "tensorforce/core/models/tensorforce.py:254-284", "tensorforce/core/models/tensorforce.py:2271-2328"]}
{"id": "C72", "title": "The default type of a policy or baseline is the simplest which has the required functions", "statement": "The default type has all required functions and is meant for the types of actions, no simpler type is and has, and a warning is logged exactly if a distribution policy has to provide values. The policy must act and provide what the objective requires, and without separate baseline also what is required of the baseline.", "quantifier": "all sets of required functions and all types of actions", "why_tests_cant": "A more general type works as well, and a missing warning is not noticed.", "anchors": ["tensorforce/core/models/tensorforce.py:360-387", "tensorforce/core/models/tensorforce.py:405-435"]}
{"id": "C73", "title": "The specification of a Gym space names every component", "statement": "For every Gym space the adapter's specification has exactly one entry for each component, named by the path to it, with its type, shape and bounds, and no two components share a name. The specification allows the components of exactly the elements of the space.", "quantifier": "all finitely nested tuples, dictionaries, boxes, discrete, multi-discrete and multi-binary spaces, for observations and actions", "why_tests_cant": "Name collisions and lost bounds depend on nesting, names and sizes of the space; tests use the spaces of a few environments.", "anchors": ["tensorforce/environments/openai_gym.py:182-204", "tensorforce/environments/openai_gym.py:267-375"]}
{"id": "C74", "title": "Actions arrive in a Gym environment as elements of its action space", "statement": "Every action which the specification of the actions allows is converted to the element of the action space with exactly these components, and every element of the action space is the conversion of an allowed action.", "quantifier": "all action spaces with a specification and all actions", "why_tests_cant": "Wrong nesting or order of components matters only for particular combinations of nesting, names and sizes.", "anchors": ["tensorforce/environments/openai_gym.py:240-244", "tensorforce/environments/openai_gym.py:450-498"]}
{"id": "C75", "title": "Observations of a Gym environment arrive as the specification says", "statement": "Every observation is converted to its components under the names of the specification, with unchanged values, and fits the specification; action masks arrive unchanged under their names; observations with infinite numbers are rejected.", "quantifier": "all observation spaces and their elements, with and without action masks", "why_tests_cant": "The names are built by two functions independently; a difference for nested or irregular spaces is not seen with the environments of the tests.", "anchors": ["tensorforce/environments/openai_gym.py:222-238", "tensorforce/environments/openai_gym.py:257-265", "tensorforce/environments/openai_gym.py:377-448"]}
{"id": "C76", "title": "Clipping and dropping of observation values of a Gym environment", "statement": "With min_value and max_value every otherwise unbounded observation value is moved to the nearest value within these bounds, other values to the nearest within their own bounds, and the specification states these bounds. With drop_states_indices exactly the values with these indices are removed, and what remains fits the specification.", "quantifier": "all observation spaces and observations, all clipping bounds and all sets of indices", "why_tests_cant": "Bounds per element and dropped indices interact; a shifted index gives an observation of the right shape with wrong values.", "anchors": ["tensorforce/environments/openai_gym.py:180-202", "tensorforce/environments/openai_gym.py:229-238", "tensorforce/environments/openai_gym.py:257-265", "tensorforce/environments/openai_gym.py:292-345"]}
{"id": "C77", "title": "Gym episodes end with the right termination code and reward", "statement": "In every episode the termination code is 1 exactly if the environment terminates by itself, then and only then with the additional terminal reward, 2 exactly if the episode is aborted by the time limit, and 0 otherwise, and no assertion of the adapter fails.", "quantifier": "all environments with and without time limit, given by id, instance or class, and all episodes", "why_tests_cant": "Termination in the very last timestep and limits which the adapter does not know are rare in tests, and a wrong code only makes training worse.", "anchors": ["tensorforce/environments/openai_gym.py:157-173", "tensorforce/environments/openai_gym.py:240-265"]}
{"id": "C78", "title": "A Gym environment is created with the requested limit and threshold", "statement": "The environment created for a registered id, or for a name which has registered versions, is a version of this name with the requested time limit and reward threshold; a name without versions is rejected. Registered ids are never changed. A new id is registered only if no registered version of the name has the requested limit, or the given id does not have the requested limit and threshold.", "quantifier": "all registries, ids, limits and thresholds", "why_tests_cant": "The search depends on which versions are registered in which order; tests use two or three ids of one registry.", "anchors": ["tensorforce/environments/openai_gym.py:63-137"]}
{"id": "C79", "title": "Cart and pole move according to the equations of motion", "statement": "Apart from rounding, each step of the cart-pole environment is one step of time with the velocities before it and with accelerations which satisfy the equations of motion of a cart with a uniform pole without friction, for the force of the action and for physics parameters which are positive and lie in the given ranges; these equations determine the next state.", "quantifier": "all accepted arguments, random numbers, states and actions", "why_tests_cant": "A wrong sign or factor gives a plausible simulation in which agents still learn; no test compares it with the mechanics.", "anchors": ["tensorforce/environments/cartpole.py:139-190"]}
{"id": "C80", "title": "Arguments and bounds of the cart-pole environment", "statement": "The cart-pole environment is created exactly if the physics parameters and the timestep are positive, ranges are in order, and continuous actions are not combined with action_noop=False. Its bounds of the two velocities are at least ten times the largest change of the velocity in one step, with an action of at most full force, from rest in upright position.", "quantifier": "all arguments and all physics parameters in the ranges", "why_tests_cant": "The bounds combine the ends of four ranges; tests use the default ranges only.", "anchors": ["tensorforce/environments/cartpole.py:47-119"]}
{"id": "C81", "title": "Parallel cart-poles behave like single ones", "statement": "Parallel instances of the cart-pole environment behave as if each was executed alone with the same random numbers and actions: after each step exactly those instances are left whose episode has not ended, under their original index and in their own state, and states, terminals and rewards are returned for the right instances.", "quantifier": "all numbers of instances, random numbers, action sequences and numbers of steps", "why_tests_cant": "Instances end at different times, and a row assigned to the wrong instance still is a plausible state.", "anchors": ["tensorforce/environments/cartpole.py:139-203"]}
{"id": "C82", "title": "Cart-pole episodes stay in the announced range until they end", "statement": "The states of the cart-pole environment at the beginning of an episode, and after each step which does not end it, lie in the range announced by the state specification. An episode ends exactly when location, angle or one of the velocities exceeds its bound, and each step is rewarded by one.", "quantifier": "all accepted arguments, random numbers, states and actions", "why_tests_cant": "Initial states and bounds come from different arguments; tests use the defaults, and the range is only checked for the first output.", "anchors": ["tensorforce/environments/cartpole.py:75-126", "tensorforce/environments/cartpole.py:139-203"]}
{"id": "C83", "title": "Executing actions does not change them", "statement": "execute of the cart-pole environment leaves the actions of the caller unchanged.", "quantifier": "all kinds of actions, with and without parallel instances", "why_tests_cant": "The array is changed in place only for one combination of arguments, and its contents are only used afterwards by some callers, for instance reward shaping.", "anchors": ["tensorforce/environments/cartpole.py:161-176", "tensorforce/environments/environment.py:595-606"]}
{"id": "C84", "title": "Layers of a network are applied in the specified order", "statement": "A layered network computes its layers one after the other in the order of the specification, blocks and inner lists in their place, a reuse layer as the layer it names, and temporal layers with their own internal state; each layer gets the output of the previous one, or the retrieved tensors.", "quantifier": "all specifications of one or several networks, all layers as functions, all inputs and internal states", "why_tests_cant": "Layers are found by name in a global registry, so a result depends on what other networks define later; tests build few networks and do not compare values.", "anchors": ["tensorforce/core/networks/network.py:376-437", "tensorforce/core/layers/layer.py:433-460", "tensorforce/core/layers/layer.py:365-418"]}
{"id": "C85", "title": "The output of a network is as announced", "statement": "If every layer computes what it announces, then the output of a layered network has the specification announced by output_spec of the network.", "quantifier": "all specifications of one or several networks, all inputs and internal states", "why_tests_cant": "A wrong announcement only shows for combinations of reused layers, blocks and retrieved tensors which no test has.", "anchors": ["tensorforce/core/networks/network.py:133-142", "tensorforce/core/networks/network.py:200-269", "tensorforce/core/networks/network.py:376-437"]}
{"id": "C86", "title": "The internal states of a network are those of its temporal layers", "statement": "The announced internal states of a layered network are exactly those of the temporal layers which are applied, each with a name of its own, and the past horizon of the network is the largest one of these layers.", "quantifier": "all specifications of one or several networks", "why_tests_cant": "Temporal layers in blocks, lists or reused layers are rare in tests, and names are generated by a counter per list.", "anchors": ["tensorforce/core/networks/network.py:144-198"]}
{"id": "C87", "title": "Networks with temporal layers return one row for each timestep", "statement": "The output of a layered network applied to timesteps with their past horizons has one row for each timestep, and all tensors which are joined have the same number of rows.", "quantifier": "all sequences of layers, numbers of timesteps and past horizons", "why_tests_cant": "Numbers of rows only differ with a nonzero horizon during updates; while acting both numbers agree.", "anchors": ["tensorforce/core/networks/network.py:376-437"]}
{"id": "C88", "title": "Registered tensors are available to all later layers", "statement": "Every input of a layered network and every registered tensor can be retrieved by all later layers with its value; tensors can only be retrieved after they are registered, every name can be registered once, and with several inputs the first layer has to retrieve.", "quantifier": "all sequences of layers and inputs", "why_tests_cant": "Errors of names are raised while networks are built, only for the names a test happens to use.", "anchors": ["tensorforce/core/networks/network.py:200-269", "tensorforce/core/layers/layer.py:105-217"]}
{"id": "C89", "title": "Registered outputs of a network are used for the actions they name", "statement": "With single_output=False, an action gets the tensor which the network registered under the name of the action with the suffix -embedding, and the final output otherwise.", "quantifier": "all networks, actions and inputs", "why_tests_cant": "Tensors of all actions have the same shape, so that using the wrong one gives no error.", "anchors": ["tensorforce/core/policies/parametrized_distributions.py:34-36", "tensorforce/core/policies/parametrized_distributions.py:72-83", "tensorforce/core/policies/parametrized_distributions.py:190-211", "tensorforce/core/networks/network.py:113-125"]}
{"id": "C90", "title": "Automatically configured networks accept all supported states", "statement": "AutoNetwork can be built for every collection of states with at most three axes, one less for discrete values, of known number of values; its output is a vector of the documented size, every state has the given number of layers, and as many layers as given follow the concatenation. Other states and contradicting arguments are rejected.", "quantifier": "all numbers, names, types and shapes of states and all arguments", "why_tests_cant": "The layers depend on type and rank of every state and on their number; tests try a few combinations and do not look at the layers.", "anchors": ["tensorforce/core/networks/auto.py:49-177"]}
{"id": "C91", "title": "Accepted preprocessing can be applied and reset", "statement": "Every accepted specification of preprocessing can be applied to any input, layer by layer in the order given, the preprocessed input being available to all layers, and every stateful layer of it is reset exactly once at the beginning of an episode. Temporal layers are rejected.", "quantifier": "all specifications of preprocessing and all inputs", "why_tests_cant": "Preprocessing layers are few in tests; nested specifications do not occur.", "anchors": ["tensorforce/core/networks/preprocessor.py:44-163"]}
{"id": "C92", "title": "Layered networks are accepted exactly if their layers fit together", "statement": "A specification of a layered network is accepted if and only if every layer accepts the specification of the tensor it gets, tensors are retrieved only after they are registered and registered under a new name, a reuse layer names a layer defined before with the same input specification, blocks are not empty and neither register nor retrieve tensors, and the names of layers are different. Layers without a name are called by their type and a number, so that their names are different.", "quantifier": "all specifications of networks and inputs, all layers as functions on specifications", "why_tests_cant": "Tests use a handful of specifications which are accepted; whether all others are accepted or rejected rightly depends on order and nesting of layers.", "anchors": ["tensorforce/core/networks/network.py:200-270", "tensorforce/core/networks/network.py:325-352", "tensorforce/core/layers/layer.py:43-53", "tensorforce/core/layers/layer.py:365-418", "tensorforce/core/layers/layer.py:433-460", "tensorforce/core/module.py:488-489"]}
{"id": "C93", "title": "A module specification stands for the documented module and arguments", "statement": "A module specification resolves to the callable it stands for: a class stands for itself, a keyword for the registered class, a path for the imported class, a JSON file for its content, a dictionary for its type or else the default, any other value for the default with this value as first argument. The constructor gets exactly the settings of the caller and of all dictionaries on the way. Contradicting settings are rejected, and everything else which stands for something is accepted, by every module.", "quantifier": "all specifications, nested to any depth, all files, registries, defaults and keyword arguments", "why_tests_cant": "The ways to write a specification can be combined and nested without limit; tests use a few of them.", "anchors": ["tensorforce/core/module.py:366-479", "tensorforce/core/networks/network.py:200-212", "tensorforce/core/networks/network.py:325-352", "docs/basics/agent-specification.md"]}
{"id": "C94", "title": "A module path names one class of the right kind", "statement": "A module path stands for the class it ends with, or for the only class of the kind asked for which the module defines. The class is always a proper subclass of this kind, and a path which is ambiguous or names no class is not resolved to something else.", "quantifier": "all libraries, class hierarchies and paths", "why_tests_cant": "The classes of a module depend on what it imports and on the hierarchy of the user's classes, which tests do not vary.", "anchors": ["tensorforce/util.py:76-118", "tensorforce/core/module.py:423-432"]}
{"id": "C95", "title": "Every update trains the policy and the baseline", "statement": "In every update the main optimizer optimises all trainable variables of the policy and, unless the baseline has an optimizer of its own, all those of the baseline; an optimizer of the baseline optimises all trainable variables of the baseline; no other variables are optimised. The weight of the loss of the baseline may be any parameter. Advantages are estimated after the update of the baseline if late and before it if early. An update fails only if the objective of the baseline is missing.", "quantifier": "all policies, baselines, other modules and combinations of baseline, objective, optimizer and advantage estimation", "why_tests_cant": "A network which is never trained gives no error; tests check that updates run, not what they change.", "anchors": ["tensorforce/core/models/tensorforce.py:254-290", "tensorforce/core/models/tensorforce.py:451-470", "tensorforce/core/models/tensorforce.py:2281-2330", "tensorforce/core/models/tensorforce.py:2431-2492", "tensorforce/core/models/tensorforce.py:2530-2578", "tensorforce/agents/tensorforce.py:145-158"]}
{"id": "C96", "title": "Losses contain every regularization term once", "statement": "The loss of an optimizer is the mean loss of its objective, plus for every variable it optimises the sum of its squares, weighted by l2_regularization of the innermost module around it which has one; the main loss also contains the loss of the baseline with its weight, if the baseline has no optimizer, and the negative mean entropy with its weight.", "quantifier": "all trees of modules, factors, variables and configurations of the baseline", "why_tests_cant": "Terms counted twice or not at all change the loss by a small amount; tests do not compute losses.", "anchors": ["tensorforce/core/module.py:329-363", "tensorforce/core/models/tensorforce.py:2820-2962", "tensorforce/core/layers/rnn.py:145-152", "tensorforce/core/networks/keras.py:95-102"]}
{"id": "C97", "title": "Every summary is written once for each value of its counter", "statement": "A summary whose label is asked for is written by a call if and only if no earlier call wrote it with the same value of its counter of timesteps, episodes or updates, so that the values of the counter increase; a tuple of names is written together. Summaries whose label is not asked for are not written, and without labels all are.", "quantifier": "all sequences of calls, counters, labels and values", "why_tests_cant": "Missing or repeated entries of a log file give no error.", "anchors": ["tensorforce/core/module.py:651-673", "tensorforce/core/module.py:702-749", "tensorforce/core/models/model.py:162-190"]}
{"id": "C98", "title": "Tracked tensors are the values computed last", "statement": "tracked_tensors returns for every module and every registered tensor whose label is tracked the value which was computed last, and nothing else.", "quantifier": "all modules, sequences of computed values and labels", "why_tests_cant": "A stale or constant value looks like a value; tests only check that the call succeeds.", "anchors": ["tensorforce/core/module.py:675-700", "tensorforce/core/module.py:751-788", "tensorforce/core/models/tensorforce.py:2592-2662"]}
{"id": "C99", "title": "Every name used for summaries and tracking is registered once", "statement": "Whatever the configuration of an agent, with any labels asked for, all names can be registered and every name used later for a summary or tracked tensor of the model is registered.", "quantifier": "all configurations of baseline, optimizer, advantage estimation, processing, policy and actions, and all labels", "why_tests_cant": "A name which is not registered raises an exception only for one combination of configuration and label.", "anchors": ["tensorforce/core/models/tensorforce.py:696-762", "tensorforce/core/models/tensorforce.py:2400-2482", "tensorforce/core/models/tensorforce.py:2834-2962"]}
{"id": "C100", "title": "The newest summaries are kept", "statement": "When a summary is created without file name, exactly as many of the oldest generically-named summaries are removed that max_summaries remain together with the new one; nothing else is removed. With a file name nothing is removed.", "quantifier": "all contents of the directory, numbers of summaries and times", "why_tests_cant": "Removal starts only when the directory already contains several summaries, and files of the user are at risk.", "anchors": ["tensorforce/core/models/model.py:249-273"]}
{"id": "C101", "title": "A saved agent is loaded as the same agent", "statement": "The specification which an agent saves, read by Agent.load, gives an agent of the same class with the same arguments, given or by default; only the saver is told to load, and the maximum number of timesteps may be replaced by the one of the environment.", "quantifier": "all agent classes and all arguments which are accepted", "why_tests_cant": "Tests save and load agents with few arguments other than the defaults and do not compare the configuration of the loaded agent with the original one.", "anchors": ["tensorforce/agents/agent.py:142-212", "tensorforce/agents/double_dqn.py:174-195", "tensorforce/agents/trpo.py:194-210", "tensorforce/agents/ppo.py:201-220", "tensorforce/agents/tensorforce.py:363-385"]}
{"id": "C102", "title": "Every argument of an agent class has its documented place and default", "statement": "The classes for particular algorithms configure the Tensorforce agent as documented: every argument, as given or with its documented default, appears in its place in the configuration (for instance horizon and discount in the reward estimation, learning_rate in the optimizer), and the algorithm is the one of the class; Tensorforce, constant and random agents pass all arguments on.", "quantifier": "all agent classes and all arguments", "why_tests_cant": "An argument put in the wrong place or dropped changes the algorithm without an error.", "anchors": ["tensorforce/agents/dqn.py:140-230", "tensorforce/agents/dpg.py:142-234", "tensorforce/agents/ac.py:139-232", "tensorforce/agents/a2c.py:143-238", "tensorforce/agents/vpg.py:142-246", "tensorforce/agents/trpo.py:149-265", "tensorforce/agents/ppo.py:153-276", "tensorforce/agents/tensorforce.py:387-458"]}
{"id": "C103", "title": "Arguments of agent classes are never ignored", "statement": "An argument which is not documented is rejected, a required one must be given, and no accepted argument is ignored: agents of the same class with the same configuration were given the same arguments.", "quantifier": "all agent classes and all pairs of arguments", "why_tests_cant": "That an argument has no effect is seen only by comparing two agents, for every argument.", "anchors": ["tensorforce/agents/a2c.py:143-238", "tensorforce/agents/vpg.py:205-245", "tensorforce/agents/trpo.py:228-262", "tensorforce/agents/ppo.py:240-275", "tensorforce/agents/tensorforce.py:335-361"]}
{"id": "C104", "title": "Documented arguments of agent classes are accepted", "statement": "An agent class accepts every combination of documented arguments with documented values if the required ones are given.", "quantifier": "all agent classes with fixed algorithm and all combinations of documented arguments", "why_tests_cant": "There are more combinations than can be tried; tests give baseline and baseline_optimizer always together.", "anchors": ["tensorforce/agents/vpg.py:100-108", "tensorforce/agents/vpg.py:211-231", "tensorforce/agents/trpo.py:230-252", "tensorforce/agents/ppo.py:244-266", "tensorforce/agents/tensorforce.py:321-334"]}
{"id": "C105", "title": "Buffered observations do not delay updates", "statement": "The number of timesteps buffered before observations are passed on never exceeds the number of timesteps between updates, and is this number by default; with updates counted in episodes whole episodes are buffered by default. Larger buffers and incomplete updates are rejected by an error of the library.", "quantifier": "all agent classes with a policy, all updates, configurations and numbers of environments", "why_tests_cant": "A buffer which is too large only shifts updates, which no test looks at.", "anchors": ["tensorforce/agents/tensorforce.py:390-430", "tensorforce/agents/agent.py:528-545", "tensorforce/core/config.py:34-35"]}
{"id": "C106", "title": "Preprocessing and exploration are chosen by name and type", "statement": "State preprocessing given per state name or type is applied to exactly these states, the entry for the name before the one for the type; one specification applies to all states; by default exactly the bounded float states are linearly normalized. Exploration given globally applies to all actions, given per action name or type to exactly these; it is not negative, and a probability (at most one) for bool and int actions. Values outside are rejected.", "quantifier": "all states, actions, preprocessing and exploration arguments", "why_tests_cant": "Tests use one or two states and only global values or names; a specification for the wrong states changes the input without an error.", "anchors": ["tensorforce/core/models/tensorforce.py:53-87", "tensorforce/core/models/tensorforce.py:108-138", "tensorforce/core/utils/nested_dict.py:190-224", "tensorforce/agents/tensorforce.py:167-178"]}
{"id": "C107", "title": "The update configuration is accepted as documented and stands for the configured schedule", "statement": "Exactly the documented update configurations are accepted: unit timesteps or episodes and a positive batch size, optionally a frequency, which is \"never\", positive, or in (0,1] relative to the batch size, and a start of at least the batch size. Unknown attributes are rejected. The frequency is as given, by default the batch size, and if relative the fraction of the batch size rounded down, at least one; the first waiting time starts at zero; with \"never\" there are no updates.", "quantifier": "all update configurations, including batch sizes, frequencies and starts which change over time", "why_tests_cant": "Tests use a handful of constant configurations and never the frequency \"never\".", "anchors": ["tensorforce/core/models/tensorforce.py:204-252", "tensorforce/core/models/tensorforce.py:680-684", "tensorforce/core/parameters/constant.py:35-60", "tensorforce/core/parameters/parameter.py:46-69", "tensorforce/agents/tensorforce.py:80-97"]}
{"id": "C108", "title": "The memory is large enough for the updates", "statement": "Without a given capacity the memory has the smallest capacity which meets all needs of updates and buffered observations; a given capacity is accepted exactly if it meets them; if no minimum is known, a capacity has to be given. With an accepted capacity every update obtains a full batch as soon as that many timesteps (with their horizons) or finished episodes are stored.", "quantifier": "all batch sizes, horizons, limits of episodes, buffers, given capacities, and all histories of the memory", "why_tests_cant": "Whether the last element of a batch still fits shows only when the memory is full and episodes have their maximum length.", "anchors": ["tensorforce/core/models/tensorforce.py:500-537", "tensorforce/core/models/tensorforce.py:2107-2127", "tensorforce/core/memories/queue.py:39-59"]}
{"id": "C109", "title": "The reward horizon is accepted as documented and fits the update and the memory", "statement": "A reward horizon is accepted exactly if it is \"episode\" or an integer (parameter) of at least one. With limited episodes, every accepted horizon is at most the length of an episode, and together with every accepted update schedule a memory of default capacity exists which holds a batch with its horizons.", "quantifier": "all horizon specifications, limits of episodes, update configurations and buffers", "why_tests_cant": "Tests use horizons far below the maximum number of timesteps, and never one beyond it or one which grows over time.", "anchors": ["tensorforce/core/models/tensorforce.py:167-183", "tensorforce/core/models/tensorforce.py:500-537", "tensorforce/core/parameters/parameter.py:46-69", "tensorforce/agents/tensorforce.py:106-109"]}
{"id": "C110", "title": "Values are converted exactly if they belong to the specified space", "statement": "A value is accepted for a tensor specification exactly if it is an element of the specified space (type, shape, finite, in range), in the batched case an array of elements; the resulting tensor has the same entries, and converting it back returns the value. Dictionaries of values are accepted exactly if they have the specified names and each value is accepted. Tensors are returned only if they belong to the specified space.", "quantifier": "all specifications and values, batched or not", "why_tests_cant": "Tests only convert valid values of a few shapes with scalar bounds; invalid entries pass silently.", "anchors": ["tensorforce/core/utils/tensor_spec.py:149-194", "tensorforce/core/utils/tensor_spec.py:196-238", "tensorforce/core/utils/tensors_spec.py:30-62", "tensorforce/agents/agent.py:442-458"]}
{"id": "C111", "title": "Outputs of environments are accepted exactly if they belong to the announced space", "statement": "The states returned by an environment are accepted exactly if they belong to the announced spaces (type, shape and range), for single and vectorized environments.", "quantifier": "all specifications and all returned arrays and numbers", "why_tests_cant": "Tests use environments which keep to their specification.", "anchors": ["tensorforce/core/utils/tensor_spec.py:240-283", "tensorforce/core/utils/tensors_spec.py:64-75", "tensorforce/environments/environment.py:445-470"]}
{"id": "C112", "title": "Specifications are consistent and survive saving and copying", "statement": "A specification is accepted exactly if its bounds suit its type and shape and the minimum is at most the maximum. Its bounds are the given ones; a number of values gives the bounds of its indices and excludes other bounds. A saved specification is read back as the same one, and a copy equals the original.", "quantifier": "all types, shapes, bounds (numbers, arrays or lists) and numbers of values", "why_tests_cant": "A bound which is changed silently by saving or rounding is not visible in results.", "anchors": ["tensorforce/core/utils/tensor_spec.py:44-71", "tensorforce/core/utils/tensor_spec.py:114-133", "tensorforce/core/utils/tensor_spec.py:507-523", "tensorforce/core/utils/tensor_spec.py:653-757"]}
{"id": "C113", "title": "States are understood in the same way in every accepted form", "statement": "Whatever form the states of one or more time steps are passed in - a list of dictionaries, a dictionary of arrays, an array if the only state is unnamed, or a single time step - processing yields for each state the array whose rows are the states of the time steps, in order, and the number of time steps. Nothing that was passed is left out, and inconsistent or empty input is rejected.", "quantifier": "all specifications and all passed values", "why_tests_cant": "Tests pass states in the one form which the runner uses.", "anchors": ["tensorforce/agents/recorder.py:491-575", "tensorforce/core/utils/nested_dict.py:70-150"]}
{"id": "C114", "title": "Experience is fed completely, once, and in whole episodes", "statement": "Experience of one or more complete episodes, in every documented form, is passed to the model episode by episode: each time step exactly once and in order, with its states, internal states, mask, action, terminal and reward, and every batch has exactly one terminal, at its end; the counters rise by the number of time steps and episodes. Incomplete, misaligned or otherwise invalid experience, or experience during an episode, is rejected and nothing is passed on.", "quantifier": "all agents, forms of arguments, numbers and lengths of episodes, with or without internal states and masks", "why_tests_cant": "A time step which is lost or assigned to the wrong episode only changes the quality of training.", "anchors": ["tensorforce/agents/tensorforce.py:460-659", "tensorforce/agents/recorder.py:491-575", "tensorforce/core/models/tensorforce.py:943-1033"]}
{"id": "C115", "title": "Pretraining feeds the recorded traces", "statement": "Every iteration of pretraining chooses as many distinct trace files as asked for (all if there are fewer), feeds each of their time steps once, in order and in whole episodes, exactly as recorded, and then performs the given number of updates. Every agent which can be recorded can be pretrained on its traces.", "quantifier": "all agents, directories of traces, orders, numbers of traces and updates", "why_tests_cant": "The only test uses one agent with a single state and action, and does not look at what is fed.", "anchors": ["tensorforce/agents/tensorforce.py:675-738", "tensorforce/agents/recorder.py:253-258", "tensorforce/agents/recorder.py:472-484"]}
{"id": "C116", "title": "Actions come back in the form of the states", "statement": "Agent.act accepts valid states of one or more time steps in every documented form - a single time step, a list of dictionaries, a dictionary of arrays, or an array for an unnamed state - with masks for any of the actions. The policy receives exactly these states and masks, row by row, with every action allowed where no mask is given. The actions come back in the corresponding form, the i-th being the action of the policy for the i-th time step, and only if they belong to the specified space.", "quantifier": "all agents, policies, numbers of time steps, forms, states and masks, independent or not", "why_tests_cant": "Tests use the one form which the runner uses, and cannot see which row of the policy's answer an action stems from.", "anchors": ["tensorforce/agents/recorder.py:154-327", "tensorforce/agents/agent.py:420-500", "tensorforce/agents/recorder.py:491-575"]}
{"id": "C117", "title": "Internal states are passed on and come back in the form given", "statement": "In independent mode internal states are required exactly if the agent has some, and refused otherwise. They are passed to the policy by name and time step. The next internal states come back in the form in which the previous ones were given, and can be passed to the next call as they are. The initial internal states are accepted, unknown names are rejected.", "quantifier": "all agents with internal states, policies, forms and numbers of time steps", "why_tests_cant": "A recurrent policy which receives the state of another time step still returns valid actions.", "anchors": ["tensorforce/agents/recorder.py:154-327", "tensorforce/agents/agent.py:420-500"]}
{"id": "C118", "title": "The argument parallel of act selects the interactions", "statement": "Agent.act with an index or list of indices, by default zero, is accepted if none of these interactions waits for observe; the policy receives exactly these indices and afterwards exactly these interactions wait for observe in addition. Calls with indices out of range, of waiting interactions, or of another number than the time steps are rejected and leave no trace. Independent calls take no index and change nothing.", "quantifier": "all numbers of interactions, states of them, and indices", "why_tests_cant": "Tests call act in the order of the runner, with correct indices.", "anchors": ["tensorforce/agents/recorder.py:154-327", "tensorforce/agents/agent.py:420-500"]}
{"id": "C119", "title": "Linear normalization maps the states into the announced range", "statement": "Linear normalization, the default preprocessing of bounded float states, can be created for every state with a lower and a greater upper bound, and announces an output between -2 and 2 wherever both bounds are finite. It maps the lower bound to -2, the upper bound to 2 and values between them linearly, and leaves entries with an infinite bound unchanged. Every state of the specified range is mapped into the announced range. A missing bound and bounds in the wrong order are reported as such.", "quantifier": "all bounds, given as numbers or entry by entry, finite or infinite, given to the layer or taken from the states, and all states", "why_tests_cant": "Tests use states between -1 and 1 or without bounds, so that errors for other ranges do not show; values outside of the announced range raise no error.", "anchors": ["tensorforce/core/layers/normalization.py:24-89", "tensorforce/core/utils/tensor_spec.py:411-489", "tensorforce/core/utils/tensor_spec.py:653-727"]}
{"id": "C120", "title": "Exponential normalization keeps moving averages", "statement": "Exponential normalization keeps for each entry an exponentially weighted mean and variance of the time steps seen so far: each time step changes the mean by the same rule, whether it arrives in a batch with others or on its own, and the variance reflects how much the values vary. Independent calls, empty batches and a decay of one leave both unchanged. Means stay within the range of the values and variances nonnegative. Each output is the difference from the current mean, divided by the root of the current variance or of the minimum variance if that is greater.", "quantifier": "all shapes, axes, decays, states of the layer, and batches", "why_tests_cant": "Effects of wrong statistics on training are gradual and drown in its noise.", "anchors": ["tensorforce/core/layers/normalization.py:92-216"]}
{"id": "C121", "title": "Instance and batch normalization give zero mean and unit variance", "statement": "After instance normalization the entries of a time step which differ along the normalized axes only, and after batch normalization those of all time steps of the batch together, have mean zero. Unless only the mean is normalized, their variance is one if it was not below the minimum variance, and otherwise the previous variance divided by the minimum. The order of these entries is kept, and their differences if only the mean is normalized. The numbers of time steps and entries do not change.", "quantifier": "all shapes, sets of axes, minimum variances above zero, and nonempty batches", "why_tests_cant": "Tests only check that the layers can be used; the axes matter for states of several dimensions only.", "anchors": ["tensorforce/core/layers/normalization.py:219-330"]}
{"id": "C122", "title": "Clipping and normalization stay within the range announced for their output", "statement": "A clipping layer maps every value to the nearest one within its bounds; it needs at least one bound, and two must be in order. The values of clipping and normalization layers are within the range announced for their output, on which following layers and checks rely.", "quantifier": "all clipping bounds, ranges of inputs, and inputs within them", "why_tests_cant": "Announced ranges are not compared with the values at run time.", "anchors": ["tensorforce/core/layers/preprocessing.py:56-114", "tensorforce/core/layers/layer.py:72-76", "tensorforce/core/layers/normalization.py:219-330"]}
{"id": "C123", "title": "Random hyperparameters produce only values allowed for them", "statement": "A randomly drawn hyperparameter is accepted if and only if its announced range, if bounded, is in order and lies within the bounds required by the module using it; a normal distribution, which is unbounded, is accepted only where no bounds are required. Every accepted one yields a value at every call, of its type, within the announced range and the required bounds, and reaches every value of the announced range below its upper end. Its final value lies within the announced range. It is announced as constant only if all its values are equal.", "quantifier": "all distributions, arguments, types, required bounds, and random numbers", "why_tests_cant": "Rare values are drawn rarely; the bounds of modules are hardly tested with random hyperparameters.", "anchors": ["tensorforce/core/parameters/random.py:51-105", "tensorforce/core/parameters/parameter.py:36-143"]}
{"id": "C124", "title": "Ornstein-Uhlenbeck hyperparameters follow the process and their bounds", "statement": "A hyperparameter following an Ornstein-Uhlenbeck process starts at its mean; each call moves it by theta of its distance towards the mean and adds sigma times standard normal noise, and then takes the absolute value if requested. After n calls the state is the mean plus sigma times the sum of the noise weighted with powers of 1 - theta. The value of a call is the new state converted to the type. The process is accepted only if all its values satisfy the required bounds, in particular where nonnegative values are required only if absolute, and no value raises an error. With noise bounded by b it remains within sigma * b / theta of its mean. Its final value lies within the announced range.", "quantifier": "all parameters of the process, required bounds and sequences of noise", "why_tests_cant": "The process is random and its parameters are hardly tested; a wrong sign or scale still looks like noise.", "anchors": ["tensorforce/core/parameters/ornstein_uhlenbeck.py:41-78", "tensorforce/core/parameters/parameter.py:36-143"]}
{"id": "C125", "title": "The constant agent returns the given or documented values, within space and masks", "statement": "The constant agent returns, for every entry of every time step of a batch, the value given for the action, or if none is given the documented default: false for boolean, 0 for integer and 0.0 for float actions. It can be created for every valid specification of actions. Values which are not in the space of their action, of another type, or for unknown actions are rejected. All actions returned are in their space and allowed by the masks, of which each has to allow at least one option; if the default is not allowed, the first allowed option is returned.", "quantifier": "all specifications of actions, given values, configurations, batches and masks", "why_tests_cant": "The constant agent is only tested with a few actions without masks.", "anchors": ["tensorforce/core/models/constant.py:28-112", "tensorforce/core/models/model.py:514-646"]}
{"id": "C126", "title": "Rewards and terminals are understood in the same way in every accepted form of observe", "statement": "Rewards, terminals and interactions may be given to observe as single values, lists or arrays. A single value means the same as a list with one entry; rewards left out are 0.0 and terminals left out are false (the same as 0), for every interaction of the call; if rewards or terminals are given for several interactions without saying which, they are for all interactions in order. Lists of different lengths and empty lists raise a TensorforceError, and no call is understood in any other way.", "quantifier": "all forms and values of the three arguments and numbers of interactions", "why_tests_cant": "Each form is tested at most once, and not in combination with the others.", "anchors": ["tensorforce/agents/recorder.py:329-410", "tensorforce/agents/agent.py:502-568"]}
{"id": "C127", "title": "An observe call which raises leaves the agent unchanged, and the model receives exactly the accepted observations", "statement": "Each reward and terminal of an accepted call of observe reaches the model, in order and as part of the episode of its interaction, possibly later; nothing else does. The batches passed to the model satisfy what it asserts: one interaction, valid terminals, and only the last time step terminal. The time steps of each interaction are counted, from zero after a terminal, and episodes longer than allowed are refused. An observation for an interaction which does not wait for one, or does not exist, is refused. A call that raises an exception leaves the agent as it was.", "quantifier": "all histories of act, observe and reset, with all arguments, numbers of interactions, buffers and limits", "why_tests_cant": "Histories with refused calls in between are not tested.", "anchors": ["tensorforce/agents/agent.py:502-568", "tensorforce/agents/recorder.py:329-410", "tensorforce/core/utils/tensor_spec.py:149-194", "tensorforce/core/models/model.py:648-681"]}
{"id": "C128", "title": "The optimizer wrapper adds exactly the requested update modifications, in the documented order", "statement": "The wrapped optimizer consists of exactly the update modifications requested by the arguments, each once, nested from outside to inside in the order of the arguments: clipping, multiple steps, subsampling, line search, double-check. The innermost optimizer is the specified one, with the given learning rate and the further arguments. Every documented optimizer can be wrapped. Values outside the documented ranges (learning rate, threshold and fraction positive, at least one step, no negative number of iterations) are rejected, and the specification of the user is not changed, so that it can be used again.", "quantifier": "all specifications of optimizers and all arguments of the wrapper", "why_tests_cant": "Only few combinations are tested; a missing or wrongly ordered modifier still trains, and so does an ignored learning rate.", "anchors": ["tensorforce/core/optimizers/optimizer_wrapper.py:20-91", "tensorforce/core/optimizers/__init__.py:36-48", "tensorforce/core/parameters/constant.py:36-58"]}
{"id": "C129", "title": "Clipping of gradients and updates keeps the direction and limits the norm", "statement": "Each gradient is applied to its own variable, and variables without gradient are left out; if no variable has a gradient an AssertionError is raised. Clipping multiplies all gradients or updates by the same factor between 0 and 1 (mode norm: each by its own; mode value: each entry is moved to the nearest allowed value), such that the norm is the threshold if it was larger, and unchanged otherwise; the variables are then changed by exactly the clipped updates. Gradients are clipped at 1.0 unless specified otherwise, and no accepted threshold makes finite gradients or updates invalid.", "quantifier": "all gradients, variables, updates and thresholds, all modes", "why_tests_cant": "Tests only run a few updates and do not look at gradients or norms.", "anchors": ["tensorforce/core/optimizers/tf_optimizer.py:75-195", "tensorforce/core/optimizers/clipping_step.py:38-88"]}
{"id": "C130", "title": "A natural gradient step goes downhill and has the learning rate as KL divergence", "statement": "A natural gradient step is the solution of the conjugate gradient solver, scaled such that the KL divergence of the step, to second order, is the learning rate (up to epsilon). The derivative of the loss in its direction is never positive if the solver has solved its equation, with any damping. With only_positive_updates the step is skipped, and nothing changed, if the divergence of the solution is too small. The step returned is the change of the variables.", "quantifier": "all Fisher matrices, solutions, gradients, learning rates and values of damping, with and without only_positive_updates", "why_tests_cant": "The scale of a step can hardly be seen from training results, and degenerate Fisher matrices do not occur in tests.", "anchors": ["tensorforce/core/optimizers/natural_gradient.py:26-198"]}
{"id": "C131", "title": "The saver writes checkpoints when they are due and keeps the newest ones", "statement": "With a saver a checkpoint of the current state of the agent is written at the first call and then whenever at least `frequency` units (timesteps, episodes or updates as configured, by default updates) have passed since the last one, never earlier. The directory holds exactly the max_checkpoints (by default 10) newest checkpoints, each with the state when it was written, and with max_hour_frequency in addition those preserved, such that no checkpoint is deleted which is that many hours newer than the last one preserved. Every documented configuration is accepted with the documented default values; configurations without required attributes, with unknown ones or with values outside the documented ranges are rejected. After closing the agent there is a checkpoint of its final state.", "quantifier": "all configurations, histories of calls with any counters, states and times, and contents of the directory", "why_tests_cant": "Tests save a few checkpoints within seconds; intervals, limits and hours are not exercised.", "anchors": ["tensorforce/core/models/model.py:143-160", "tensorforce/core/models/model.py:298-335", "tensorforce/core/models/model.py:785-794", "tensorforce/core/models/model.py:215-217", "tensorforce/agents/tensorforce.py:224-242"]}
{"id": "C132", "title": "Agent.load restores the checkpoint asked for", "statement": "Agent.load returns an agent with the state of the checkpoint given by directory and file name, without file name with that of the latest checkpoint in the directory, and if only a saver is given with that of the latest checkpoint in its directory. Loading changes no directory. If there is no checkpoint, or the saver is configured not to load, an exception is raised.", "quantifier": "all directories, file names, savers and contents of directories", "why_tests_cant": "Loading is tested with single saves of freshly created agents, whose states hardly differ.", "anchors": ["tensorforce/agents/agent.py:157-212", "tensorforce/agents/agent.py:629-729", "tensorforce/core/models/model.py:298-335", "tensorforce/core/models/model.py:915-930"]}
{"id": "C133", "title": "The ALE adapter signals and rewards each loss of life as documented", "statement": "With loss_of_life_termination an execution is terminal exactly if the game is over or a life was lost in it, without exactly if the game is over. The reward is that of the game, plus loss_of_life_reward if a life was lost, so that the return of an episode is the score of the game plus loss_of_life_reward times the number of losses. Each announced action can be executed, and the values of the states are within the announced bounds.", "quantifier": "all games, sequences of actions, and values of both arguments", "why_tests_cant": "The adapter is tested, if the emulator is installed at all, with default arguments only, for which lives do not matter.", "anchors": ["tensorforce/environments/arcade_learning_environment.py:21-117"]}
{"id": "C134", "title": "ViZDoom actions are exactly the combinations of buttons, and an action has the reward of its frames", "statement": "Each combination of buttons is exactly one of the announced actions, and action k presses the buttons of the binary digits of k; a factored action presses exactly the buttons set. An execution repeats the action for frame_skip frames, up to the end of the episode, and its reward is the sum of the rewards of these frames, whether visualized or not. It is terminal exactly if the episode is finished. The states returned are those of the game, after the end of the episode the last ones before.", "quantifier": "all games, numbers of buttons, actions, states and numbers of frames, visualized or not", "why_tests_cant": "Tests use one configuration without visualization, and do not compare rewards.", "anchors": ["tensorforce/environments/vizdoom.py:24-145"]}
{"id": "C135", "title": "The PLE and OpenSim adapters announce the states they return and execute each announced action", "statement": "The adapters announce states of the shapes and bounds they return, for games with and without game state. Each announced action can be executed unless the game is over, with the reward of the game, and terminal exactly if the game is over afterwards; later executions are refused. Each documented level is accepted.", "quantifier": "all games, states, actions and levels", "why_tests_cant": "The simulators are hardly ever installed when tests are run.", "anchors": ["tensorforce/environments/pygame_learning_environment.py:25-129", "tensorforce/environments/open_sim.py:19-66"]}
{"id": "C136", "title": "The runner creates the environments asked for, each at its own address, and the agent with one interaction for each", "statement": "Each documented combination of environment, environments, num_parallel, evaluation, remote mode, host and port is accepted, and the runner has exactly the environments meant: the given one, num_parallel times the specified one (executed by one object if it is vectorizable), those of the list, or those served at the given addresses, where a single port is increased for each environment. The agent is the given one, created or loaded, with as many parallel interactions as environments or actors, except that for evaluation. Other combinations, among them evaluation without further environments, objects in other processes, and wrong types, raise a TensorforceError.", "quantifier": "all combinations of arguments, numbers of environments and actors, and environments served", "why_tests_cant": "The tests use a handful of combinations; invalid and unusual ones are not tested.", "anchors": ["tensorforce/execution/runner.py:24-215", "tensorforce/environments/environment.py:78-131"]}
{"id": "C137", "title": "The command line program runs what its arguments ask for and stores the results of each episode", "statement": "A command line with any of the documented options creates the runner, or the environment server, with exactly the given agent, environment, level, limits, remote mode, hosts and ports, comma-separated lists being split into their parts, and runs it as often as asked for. The stored results have one row for each episode, with one value for each repetition, in order.", "quantifier": "all command lines, numbers of repetitions and episodes, and results", "why_tests_cant": "The program is not tested at all.", "anchors": ["run.py:27-231"]}
{"id": "C138", "title": "A run goes on until a callback returns false", "statement": "A run goes on as long as none of the callbacks given returns false; callbacks which return nothing do not stop it. This does not depend on whether a single callback or a list of callbacks is given.", "quantifier": "all numbers of callbacks and values returned by them", "why_tests_cant": "Tests use callbacks which always return true, singly or in lists.", "anchors": ["tensorforce/execution/runner.py:217-276", "tensorforce/execution/runner.py:354-372"]}
{"id": "C139", "title": "The image layer returns images of the announced size, interpolated and within the announced range", "statement": "The image layer announces images of the requested height and width, with the aspect ratio of the input kept as closely as possible if only one of them is given, and with one channel if grayscale. Each accepted layer returns such images for every image of its input specification: each pixel is the bilinear interpolation at its center, grayscale pixels are the weighted sums of the channels, and all values stay in the range announced for the output.", "quantifier": "all images, sizes, numbers of channels, weights and ranges", "why_tests_cant": "The tests apply the layer to one image size with one choice of arguments and only check that the agent runs.", "anchors": ["tensorforce/core/layers/preprocessing.py:208-270"]}
{"id": "C140", "title": "Every value of a discrete state has its own embedding", "statement": "The embedding layer accepts exactly the discrete states for each of whose values there is an embedding, by default one for each value. A state is embedded by replacing each of its entries by the embedding of its value, clipped to the norm given and with the bias added; the result has the announced shape, and does not depend on the embeddings of other values.", "quantifier": "all states, numbers of values and embeddings, sizes, norms and weights", "why_tests_cant": "The tests embed one kind of state with the default number of embeddings.", "anchors": ["tensorforce/core/layers/embedding.py:23-133", "tensorforce/core/layers/layer.py:782-843"]}
{"id": "C141", "title": "A variable begins with the values its initializer says", "statement": "For every name, specification, initializer and flags: a number, 'zeros', 'ones' and 'constant' fill the variable with that number; an array is copied; 'orthogonal' gives a matrix (the last axis being the columns) whose columns, or rows if these are fewer, are orthogonal and have the length initialization_scale, times the root of two for 'orthogonal-relu'; 'normal' gives normal numbers of standard deviation the root of two divided by the number of rows and columns, or of rows for 'normal-relu', but at most 0.1. Invalid arguments are rejected with a TensorforceError, among them scales which are not positive, arrays of another shape or type, and training of variables which are not of type float. Names contain no slash.", "quantifier": "all names, types, shapes, initializers, scales and flags", "why_tests_cant": "The tests create variables only by layers with default arguments and do not look at their values.", "anchors": ["tensorforce/core/module.py:521-649"]}
{"id": "C142", "title": "The weights of layers begin as orthogonal matrices of the given scale", "statement": "The weights of a dense or convolutional layer begin as a matrix, with one row for each input of an output and one column for each output, whose columns, or rows if these are fewer, are orthogonal and have the length initialization_scale, times the root of two if the activation is relu. So a dense layer at least as large as its input multiplies the norm of its input by exactly this length, and a smaller one by at most this length, before bias and activation. Exactly the positive numbers of type float are accepted as scale. Biases begin with zero, embeddings with normal numbers of standard deviation at most 0.1.", "quantifier": "all sizes, windows, activations, scales and inputs", "why_tests_cant": "Random weights are not examined by the tests.", "anchors": ["tensorforce/core/layers/dense.py:88-101", "tensorforce/core/layers/convolution.py:116-129", "tensorforce/core/layers/convolution.py:255-269", "tensorforce/core/layers/convolution.py:385-398", "tensorforce/core/layers/convolution.py:553-567", "tensorforce/core/layers/embedding.py:118-126", "tensorforce/core/layers/layer.py:812-827", "tensorforce/core/module.py:607-632"]}
{"id": "C143", "title": "Self-attention replaces each position by an average of the values of all positions", "statement": "The self-attention layer accepts inputs with one or two axes of positions. For every input and all sizes documented, each position of the output has the announced size and is the average of the values of all positions, plus the bias, with positive weights whose sum is one and which are proportional to the exponential function of the scalar product of the query of the position and the key of the other, divided by the square root of the attention size. So without bias no feature leaves the range of the values, equal values are kept, and the output of a position does not depend on the order of the others.", "quantifier": "all inputs, numbers of positions, sizes, queries, keys, values and biases", "why_tests_cant": "The tests apply the layer to random inputs once and do not look at the output.", "anchors": ["tensorforce/core/layers/attention.py:51-137", "tensorforce/core/layers/linear.py:49-70", "tensorforce/core/layers/layer.py:829-835"]}
{"id": "C144", "title": "Activation functions have the values, the ranges and the output specification they stand for", "statement": "Exactly the documented names are accepted. Each function has the values of its definition: relu and leaky-relu are zero and a fifth below zero, sigmoid, tanh and softsign are strictly increasing and stay within their ranges, softmax is a distribution, and so on. The output has the size and the bounds which the layer announces.", "quantifier": "all names, inputs, sizes and bounds", "why_tests_cant": "The tests apply some of the functions to random inputs and do not look at the output.", "anchors": ["tensorforce/core/layers/misc.py:40-98", "tensorforce/core/layers/layer.py:75-76"]}
{"id": "C145", "title": "Global pooling reduces all positions of an input", "statement": "The pooling layer returns for each feature the sum, the product, the mean or the maximum of this feature over all positions of the input, whatever the number and sizes of its axes. Concatenation, and the flatten layer, return all entries of the input, each once and in order.", "quantifier": "all numbers and sizes of axes, and all inputs", "why_tests_cant": "The tests apply the layer to random inputs and do not look at the values.", "anchors": ["tensorforce/core/layers/pooling.py:36-43", "tensorforce/core/layers/pooling.py:62-106"]}
{"id": "C146", "title": "Local pooling reduces the entries of each window", "statement": "The one- and two-dimensional pooling layers accept windows and strides given by a positive number or, in two dimensions, also by a pair, one for rows and one for columns. Each output is the mean or the maximum of the entries in its window, the windows being moved by the stride; with padding 'same' there are as many as multiples of the stride in the input, with padding 'valid' as many as fit. So all outputs stay in the bounds of the input, and no entry is ignored if the stride is not greater than the window and the padding is 'same'. Other arguments are rejected with a TensorforceError.", "quantifier": "all inputs, sizes, windows, strides, reductions and paddings", "why_tests_cant": "The tests apply the layers with default arguments to random inputs and do not look at the values.", "anchors": ["tensorforce/core/layers/pooling.py:128-152", "tensorforce/core/layers/pooling.py:171-186", "tensorforce/core/layers/pooling.py:208-236", "tensorforce/core/layers/pooling.py:260-271"]}
{"id": "C147", "title": "The tuner evaluates the agent which a configuration describes", "statement": "For every configuration of its search space, the tuner builds one agent which takes over the parameters of the configuration: a clipping value above one and an entropy regularization below 1e-5 mean none, there are baseline objective, weight and advantage exactly if the configuration has a baseline, and a network of its own exactly for baseline 'yes'; all parameters are in the ranges which agents accept. A budget which is the k-th power of the base is for the number of runs of round k, and other budgets are refused; each run has at most as many parallel environments as asked for and as episodes in a batch. The loss is the negative sum of the mean return and the mean of the last 20 returns, both averaged over the runs, so greater returns never have a greater loss.", "quantifier": "all configurations, budgets, bases, runs per round, numbers of environments and returns", "why_tests_cant": "There are no tests of the tuner, which needs packages that are not requirements; a sample of configurations would not cover the conditions of the space.", "anchors": ["tune.py:46-149", "tune.py:152-222"]}
{"id": "C148", "title": "Dense and convolutional layers compute the weighted sums of windows", "statement": "Each output of a dense layer is the sum over the input features of input and weight, plus its bias. Each output of a convolutional layer is the sum over its window and the input features of input and weight, plus its bias, where windows are moved by the stride and spread by the dilation, and missing entries count as zero; with padding 'same' there is an output for each multiple of the stride in the input and the zeros are distributed evenly, with padding 'valid' for each window which fits. So, without bias, the layers are linear, each output depends on the entries of its window only, moving an unpadded input by the strides moves the output by one, and a linear layer treats all positions of a sequence or an image alike, namely as a dense layer.", "quantifier": "all inputs, sizes, weights, windows, strides, dilations and paddings", "why_tests_cant": "The tests apply the layers with default arguments to random inputs and do not look at the values.", "anchors": ["tensorforce/core/layers/dense.py:103-107", "tensorforce/core/layers/convolution.py:131-138", "tensorforce/core/layers/convolution.py:271-278", "tensorforce/core/layers/layer.py:829-832", "tensorforce/core/layers/linear.py:49-94"]}
{"id": "C149", "title": "A transposed convolution is the transpose of a convolution", "statement": "For every sequence whose length is that of the convolved output, the one-dimensional transposed convolution gives an output of the given width and size, plus its bias; as a linear map, it is the transpose of the convolution with the same weights, window, stride, padding and dilation. Without a given output width, the width is chosen such that this is the case, and sequences of other lengths are refused.", "quantifier": "all sequences, weights, sizes, windows, strides, dilations, paddings and output widths", "why_tests_cant": "The tests apply the layer with default arguments to random inputs of the same size as the output and do not look at the values.", "anchors": ["tensorforce/core/layers/convolution.py:318-331", "tensorforce/core/layers/convolution.py:364-411"]}
