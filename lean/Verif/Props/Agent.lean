import Verif.Agent.Facts

/-!
# Properties C14-C16, C47: the act-observe interface and the trace recorder

`(State.init.run cfg ops)` is the modelled agent after the calls `ops`, with the outcome of each call; `Spec.init.run cfg ops`
is the specification: per interaction the pending timestep and the running episode, and the finished episodes.
-/

namespace Verif.Props.Agent

open Verif.Agent

variable {X A R : Type}

/-! ## C14 -/

/-- **C14, part.** In every history in which nothing fails after a call has been found in order (`SmoothRun`): a call is
accepted exactly if the specification accepts it; per interaction the accepted calls alternate act, observe, act, ...; and
the interface knows which interactions wait and how long the running episodes are. Missing: calls that fail later, for which
it is false, see the violations below. -/
theorem act_observe_alternate_partial (cfg : Config) (ops : List (Op X A R)) (h : SmoothRun cfg Spec.init ops) :
    let m := (State.init : State X A R).run cfg ops
    let s := (Spec.init : Spec X A R).run cfg ops
    m.2 = s.2 ∧ (∀ p, Alternating false (accepted p ops m.2) = true) ∧
    (∀ p, m.1.completed p = (s.1.pend p).isNone) ∧ (∀ p, m.1.counter p = (s.1.cur p).length) := by
  obtain ⟨h1, h2⟩ := rel_run cfg ops _ _ (rel_init cfg) h
  refine ⟨h1, fun p => ?_, h2.1.1, h2.1.2.1⟩
  rw [h1]
  exact spec_alternates cfg ops Spec.init h p

/-- **C14, part.** Under the same condition a rejected call changes nothing. -/
theorem rejected_call_no_effect_partial (cfg : Config) (ops : List (Op X A R)) (o : Op X A R)
    (h : SmoothRun cfg Spec.init (ops ++ [o])) :
    let st := ((State.init : State X A R).run cfg ops).1
    (st.step cfg o).2 = false → (st.step cfg o).1 = st := by
  have key : ∀ (ops : List (Op X A R)) (s : Spec X A R), SmoothRun cfg s (ops ++ [o]) →
      SmoothRun cfg s ops ∧ ((s.run cfg ops).1.accepts cfg o → Smooth cfg (s.run cfg ops).1 o) := by
    intro ops
    induction ops with
    | nil => intro s h; exact ⟨trivial, h.1⟩
    | cons o' ops ih =>
      intro s h
      obtain ⟨h1, h2⟩ := h
      obtain ⟨h3, h4⟩ := ih _ h2
      exact ⟨⟨h1, h3⟩, h4⟩
  obtain ⟨h1, h2⟩ := key ops Spec.init h
  obtain ⟨_, hrel⟩ := rel_run cfg ops _ _ (rel_init cfg) h1
  obtain ⟨h3, _, h5⟩ := rel_step cfg _ _ hrel o h2
  intro st hst
  exact h5 (by rw [← h3]; exact hst)

/-- **C14.** In every history, whatever fails: timesteps advance by one for each interaction of an accepted `act` call,
episodes by one for each terminal of an accepted `observe` call, and neither otherwise. -/
theorem counters_count_accepted (cfg : Config) (ops : List (Op X A R)) :
    let m := (State.init : State X A R).run cfg ops
    m.1.timesteps = actions ops m.2 ∧ m.1.episodes = ends ops m.2 := by
  obtain ⟨h1, h2⟩ := run_counts cfg ops (State.init : State X A R)
  refine ⟨?_, ?_⟩
  · rw [h1]; simp [State.init]
  · rw [h2]; simp [State.init]

/-- Two interactions; recording every second episode. -/
def exCfg : Config := ⟨2, some 3, some 2, some ⟨0, 2, some 2⟩⟩

/-- Interaction 0 makes an episode of two timesteps, interaction 1 one of one timestep, then an unfinished one; calls 3 and 6
are out of order. -/
def exOps : List (Op Nat Nat Int) :=
  [.act [0, 1] [10, 20] (some [1, 2]), .observe [0] [0] [5], .act [1] [21] (some [7]), .act [0] [11] (some [3]),
   .observe [1, 0] [1, 2] [6, 7], .observe [0] [0] [1], .act [0] [12] (some [4])]

theorem smoothRun_ex : SmoothRun exCfg Spec.init exOps := by
  apply smooth_of_plain
  · left; intro rc h; simp [exCfg] at h; rw [← h]
  · intro p _; exact ⟨rfl, rfl⟩
  · simp only [exOps, PlainRun, Plain]
    refine ⟨fun _ => by decide, fun _ => ⟨by decide, ?_⟩, fun _ => by decide, fun _ => by decide,
      fun _ => ⟨by decide, ?_⟩, fun _ => ⟨by decide, ?_⟩, fun _ => by decide, trivial⟩
    all_goals
      intro m hm x hx h0
      simp [exCfg] at hm
      subst hm
      simp at hx
    · subst hx; decide
    · rcases hx with rfl | rfl <;> simp at h0
    · subst hx; decide

example : ((State.init : State Nat Nat Int).run exCfg exOps).2 = [true, true, false, true, true, false, true] := by decide
example : let m := (State.init : State Nat Nat Int).run exCfg exOps
    m.1.timesteps = 4 ∧ m.1.episodes = 2 ∧ accepted 0 exOps m.2 = [.act, .observe, .act, .observe, .act] := by decide

/-- **C14, violation.** If the policy fails inside `act`, the call raises but leaves the interaction pending: the following
`observe` is accepted without an accepted `act`. -/
theorem failed_act_violation :
    let cfg : Config := ⟨1, none, some 1, none⟩
    let ops : List (Op Nat Nat Int) := [.act [0] [10] none, .observe [0] [0] [5]]
    let m := (State.init : State Nat Nat Int).run cfg ops
    m.2 = [false, true] ∧ accepted 0 ops m.2 = [.observe] ∧ Alternating false (accepted 0 ops m.2) = false := by decide

/-- **C14, violation.** An `observe` call that is rejected because the episode is too long has already completed the
timestep: two `act` calls are accepted in a row. -/
theorem too_long_violation :
    let cfg : Config := ⟨1, some 1, some 1, none⟩
    let ops : List (Op Nat Nat Int) := [.act [0] [10] (some [1]), .observe [0] [0] [5], .act [0] [11] (some [2]),
      .observe [0] [0] [6], .act [0] [12] (some [3])]
    let m := (State.init : State Nat Nat Int).run cfg ops
    m.2 = [true, true, true, false, true] ∧ accepted 0 ops m.2 = [.act, .observe, .act, .act] ∧
    Alternating false (accepted 0 ops m.2) = false := by decide

/-- **C14, violation.** An index given twice is accepted and acts twice for one interaction. -/
theorem duplicate_index_violation :
    let cfg : Config := ⟨1, none, some 1, none⟩
    let ops : List (Op Nat Nat Int) := [.act [0, 0] [10, 11] (some [1, 2])]
    let m := (State.init : State Nat Nat Int).run cfg ops
    m.2 = [true] ∧ accepted 0 ops m.2 = [.act, .act] ∧ m.1.timesteps = 2 := by decide

/-! ## C15 -/

/-- **C15.** For every buffer size and history of calls (accepted, rejected or failing) after creation or after a reset
(empty buffers), per interaction: the batches handed to the model since then, put together, plus the content of the buffer,
are exactly what was observed; every batch has as many rewards as terminals, a terminal at most as its last element, and
ends with a terminal or has exactly the buffer size; what remains in the buffer has no terminal and is shorter than the buffer
size. -/
theorem buffering_loses_nothing (cfg : Config) (hk : cfg.buffer ≠ some 0) (st : State X A R) (p : Nat)
    (he : st.termBuf p = [] ∧ st.rewBuf p = []) (ops : List (Op X A R)) (hno : .reset ∉ ops) :
    let m := st.run cfg ops
    ∃ new, m.1.flushed p = st.flushed p ++ new ∧
      flat new ++ (m.1.termBuf p).zip (m.1.rewBuf p) = observedBy p ops m.2 ∧
      (∀ b ∈ new, FullBatch cfg.buffer b) ∧ OpenBatch cfg.buffer (m.1.termBuf p, m.1.rewBuf p) := by
  have h0 : BatchInv cfg st st p [] := by
    refine ⟨[], by simp, by simp [flat, he.1], by simp, ?_⟩
    refine ⟨by simp [he.1, he.2], by simp [he.1], ?_⟩
    intro k hkk
    simp only [he.1, List.length_nil]
    apply Nat.pos_of_ne_zero
    rintro rfl
    exact hk hkk
  exact run_batch cfg hk st p ops hno st [] h0

/-- **C15.** A reset empties the buffers and hands over nothing, so the statement applies again after it. -/
theorem reset_empties (cfg : Config) (st : State X A R) (p : Nat) :
    let st' := (st.step cfg .reset).1
    st'.termBuf p = [] ∧ st'.rewBuf p = [] ∧ st'.flushed p = st.flushed p := ⟨rfl, rfl, rfl⟩

example : let ops : List (Op Nat Nat Int) := [.act [0] [1] (some [1]), .observe [0] [0] [1], .act [0] [1] (some [1]),
      .observe [0] [0] [2], .act [0] [1] (some [1]), .observe [0] [1] [3], .act [0] [1] (some [1]), .observe [0] [0] [4]]
    let m := (State.init : State Nat Nat Int).run ⟨1, none, some 2, none⟩ ops
    m.1.flushed 0 = [([0, 0], [1, 2]), ([1], [3])] ∧ m.1.termBuf 0 = [0] ∧ m.1.rewBuf 0 = [4] := by decide

/-! ## C16 -/

/-- **C16, part.** In every smooth history without reset the traces written are, in order, the consecutive groups of
`frequency` finished episodes from episode number `start` on, each named after its last episode; what has been recorded and
not written are the remaining episodes. Missing: resets, and several interactions whose episodes are under way when
recording starts (`SmoothRun` excludes them), for which it is false. -/
theorem traces_written_partial (cfg : Config) (rc : Rec) (hrc : cfg.recorder = some rc) (hf : 0 < rc.frequency)
    (ops : List (Op X A R)) (hno : .reset ∉ ops) (h : SmoothRun cfg Spec.init ops) :
    ((State.init : State X A R).run cfg ops).1.written =
      tracesOf rc.start rc.frequency (((Spec.init : Spec X A R).run cfg ops).1.done.drop rc.start) :=
  (write_run cfg rc hrc hf ops hno _ _ (rel_init cfg) (writeRel_init rc) h).2.2.2.2

/-- **C16.** What these groups are: `frequency` whole episodes each, in which only the last timestep is a terminal, and as
many states, actions, terminals and rewards. -/
theorem traces_whole_episodes (cfg : Config) (ops : List (Op X A R)) (start f : Nat) (t : Trace X A R)
    (ht : t ∈ tracesOf start f (((Spec.init : Spec X A R).run cfg ops).1.done.drop start)) :
    ∃ k eps, t = traceOf (start + (k + 1) * f - 1) eps ∧ eps.length = f ∧ (∀ e ∈ eps, Whole e) ∧
      eps = ((((Spec.init : Spec X A R).run cfg ops).1.done.drop (start + k * f)).take f) ∧
      t.states.length = t.terminal.length ∧ t.actions.length = t.terminal.length ∧ t.reward.length = t.terminal.length := by
  have hok : EpisodesOk ((Spec.init : Spec X A R).run cfg ops).1 :=
    run_episodes cfg ops _ ⟨by simp [Spec.init], by simp [Spec.init]⟩
  have hw := hok.1
  generalize ((Spec.init : Spec X A R).run cfg ops).1.done = D at ht hw ⊢
  simp only [tracesOf, List.mem_map, List.mem_range] at ht
  obtain ⟨k, hk, rfl⟩ := ht
  refine ⟨k, _, rfl, ?_, ?_, ?_, ?_, ?_, ?_⟩
  · have h1 : (k + 1) * f ≤ (D.drop start).length :=
      Nat.le_trans (Nat.mul_le_mul_right f (Nat.succ_le_of_lt hk)) (Nat.div_mul_le_self _ _)
    rw [Nat.add_mul, Nat.one_mul] at h1
    rw [List.length_take, List.length_drop]
    omega
  · intro e he
    exact hw e (List.mem_of_mem_drop (List.mem_of_mem_drop (List.mem_of_mem_take he)))
  · rw [List.drop_drop]
  all_goals simp only [traceOf, List.length_map]

/-- **C16.** When `SmoothRun` holds: no recorder or recording from the first episode on, or a single interaction, and no call
that fails after it was found in order. -/
theorem smooth_if (cfg : Config) (hrec : (∀ rc, cfg.recorder = some rc → rc.start = 0) ∨ cfg.parallel ≤ 1)
    (ops : List (Op X A R)) (h : PlainRun cfg Spec.init ops) : SmoothRun cfg Spec.init ops :=
  smooth_of_plain cfg hrec ops Spec.init (fun _ _ => ⟨rfl, rfl⟩) h

example : ((State.init : State Nat Nat Int).run exCfg exOps).1.written =
    [⟨1, [20, 10, 11], [2, 1, 3], [1, 0, 2], [6, 5, 7]⟩] := by decide

/-- **C16, violation.** Two interactions, recording from episode 1 on. Interaction 1 is in the middle of an episode when
interaction 0 finishes the first one: the trace of its episode of two timesteps holds only the second one. -/
theorem mid_episode_start_violation :
    let cfg : Config := ⟨2, none, some 1, some ⟨1, 1, none⟩⟩
    let ops : List (Op Nat Nat Int) := [.act [0, 1] [10, 20] (some [1, 2]), .observe [0, 1] [1, 0] [5, 6],
      .act [1] [21] (some [3]), .observe [1] [1] [7]]
    let m := (State.init : State Nat Nat Int).run cfg ops
    let s := (Spec.init : Spec Nat Nat Int).run cfg ops
    m.2 = [true, true, true, true] ∧ m.1.written = [⟨1, [21], [3], [1], [7]⟩] ∧
    s.1.done = [[⟨10, 1, 1, 5⟩], [⟨20, 2, 0, 6⟩, ⟨21, 3, 1, 7⟩]] := by decide

/-- **C16, violation.** Here interaction 1 has acted before recording starts and observes afterwards: the trace has more
terminals and rewards than states and actions. -/
theorem misaligned_trace_violation :
    let cfg : Config := ⟨2, none, some 1, some ⟨1, 1, none⟩⟩
    let ops : List (Op Nat Nat Int) := [.act [0, 1] [10, 20] (some [1, 2]), .observe [0] [1] [5], .observe [1] [0] [6],
      .act [1] [21] (some [3]), .observe [1] [1] [7]]
    let m := (State.init : State Nat Nat Int).run cfg ops
    m.2 = [true, true, true, true, true] ∧ m.1.written = [⟨1, [21], [3], [0, 1], [6, 7]⟩] := by decide

/-- **C16, violation.** If that observation ends the episode, `observe` raises, since nothing is there to be stacked, and the
observed values never reach the agent. -/
theorem empty_stack_violation :
    let cfg : Config := ⟨2, none, some 1, some ⟨1, 1, none⟩⟩
    let ops : List (Op Nat Nat Int) := [.act [0, 1] [10, 20] (some [1, 2]), .observe [0] [1] [5], .observe [1] [1] [6]]
    let m := (State.init : State Nat Nat Int).run cfg ops
    m.2 = [true, true, false] ∧ m.1.episodes = 1 ∧ m.1.flushed 1 = [] := by decide

/-- **C16, violation.** A reset drops recorded episodes but keeps their number: with frequency 2 the next file has one
episode. -/
theorem reset_trace_violation :
    let cfg : Config := ⟨1, none, some 1, some ⟨0, 2, none⟩⟩
    let ops : List (Op Nat Nat Int) := [.act [0] [10] (some [1]), .observe [0] [1] [5], .reset, .act [0] [11] (some [2]),
      .observe [0] [1] [6]]
    let m := (State.init : State Nat Nat Int).run cfg ops
    m.2 = [true, true, true, true, true] ∧ m.1.written = [⟨1, [11], [2], [1], [6]⟩] := by decide

/-! ## C47 -/

/-- **C47, part.** Starting with an empty directory, after every history of calls: without a limit, or with `max-traces` at
least two, the directory holds exactly the newest `max-traces` of the traces written. Missing: `max-traces` below two, for
which it is false. -/
theorem trace_retention_partial (cfg : Config) (rc : Rec) (hrc : cfg.recorder = some rc)
    (hm : rc.maxTraces ≠ some 0 ∧ rc.maxTraces ≠ some 1) (ops : List (Op X A R)) :
    let st := ((State.init : State X A R).run cfg ops).1
    st.files = newest rc.maxTraces st.written := by
  refine (run_dir cfg rc hrc hm ops State.init ⟨?_, by simp [State.init]⟩).1
  cases h : rc.maxTraces <;> simp [State.init, newest]

/-- **C47, violation.** With `max-traces = 1` nothing is ever deleted. -/
theorem single_trace_violation :
    let cfg : Config := ⟨1, none, some 1, some ⟨0, 1, some 1⟩⟩
    let ops : List (Op Nat Nat Int) := [.act [0] [10] (some [1]), .observe [0] [1] [5], .act [0] [11] (some [2]),
      .observe [0] [1] [6], .act [0] [12] (some [3]), .observe [0] [1] [7]]
    ((State.init : State Nat Nat Int).run cfg ops).1.files.map (·.name) = [0, 1, 2] := by decide

/-- **C47, violation.** With traces of an earlier run in the directory the newest file is not kept: names start again at
zero, and the earlier files count as newer. -/
theorem earlier_run_violation :
    let cfg : Config := ⟨1, none, some 1, some ⟨0, 1, some 2⟩⟩
    let st : State Nat Nat Int := { State.init with files := [⟨8, [], [], [], []⟩, ⟨9, [], [], [], []⟩] }
    let ops : List (Op Nat Nat Int) := [.act [0] [10] (some [1]), .observe [0] [1] [5], .act [0] [11] (some [2]),
      .observe [0] [1] [6]]
    (st.run cfg ops).1.files.map (·.name) = [1, 9] := by decide

example : let cfg : Config := ⟨1, none, some 1, some ⟨0, 1, some 2⟩⟩
    let ops : List (Op Nat Nat Int) := [.act [0] [10] (some [1]), .observe [0] [1] [5], .act [0] [11] (some [2]),
      .observe [0] [1] [6], .act [0] [12] (some [3]), .observe [0] [1] [7]]
    ((State.init : State Nat Nat Int).run cfg ops).1.files.map (·.name) = [1, 2] := by decide

end Verif.Props.Agent
