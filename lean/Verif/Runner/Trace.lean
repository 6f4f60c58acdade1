import Verif.Runner.Inv

/-! # Every event of the log is due (separate agent calls) -/

namespace Verif.Runner

variable {c : Config} {o : Oracle}

/-! ## Counters -/

/-- The counters agree with the log, and `terminate = 2` with the limits. -/
structure Tally (c : Config) (o : Oracle) (s : State) : Prop where
  timesteps : s.timesteps = timestepsOf c s.log
  updates : s.updates = updatesOf o s.log
  stopped : s.terminate = 2 → Stopped c o s.log
  full : Full c o s.log → s.terminate = 2

theorem quit_cons {e : Event} {l : List Event} (h : quit o l = true) : quit o (e :: l) = true := by simp [quit, h]

theorem quit_now {l : List Event} (h : o.callback l = false) : quit o l = true := by cases l <;> simp [quit, h]

theorem reached_mono {k k' : Nat} {lim : Option Nat} (hk : k ≤ k') (h : reached k lim = true) : reached k' lim = true := by
  cases lim with
  | none => exact h
  | some l => simp only [reached, decide_eq_true_eq] at h ⊢; omega

theorem Stopped.mono {l l' : List Event} (h : Stopped c o l) (ht : timestepsOf c l ≤ timestepsOf c l') (hu : updatesOf o l ≤ updatesOf o l')
    (hq : quit o l = true → quit o l' = true) : Stopped c o l' := by
  rcases h with h | h | h
  · exact .inl (reached_mono ht h)
  · exact .inr (.inl (reached_mono hu h))
  · exact .inr (.inr ⟨h.1, hq h.2⟩)

/-- An event that counts nothing. -/
def Silent (c : Config) (e : Event) : Prop := ∀ l, timestepsOf c (e :: l) = timestepsOf c l ∧ ∀ o, updatesOf o (e :: l) = updatesOf o l

theorem silent_reset (n : Nat) : Silent c (.reset n) := fun l => ⟨by simp [timestepsOf, Event.isAct, Event.isEvalAct], fun _ => rfl⟩
theorem silent_execute (n : Nat) : Silent c (.execute n) := fun l => ⟨by simp [timestepsOf, Event.isAct, Event.isEvalAct], fun _ => rfl⟩
theorem silent_evalAct (n : Nat) (h : c.alone = false) : Silent c (.evalAct n) := fun l => ⟨by simp [timestepsOf, Event.isAct, h], fun _ => rfl⟩

theorem Tally.push {s : State} {e : Event} (h : Tally c o s) (he : Silent c e) : Tally c o { s with log := e :: s.log } := by
  obtain ⟨h1, h2⟩ := he s.log
  refine ⟨h.timesteps.trans h1.symm, h.updates.trans (h2 o).symm, fun ht => ?_, fun hf => h.full ?_⟩
  · exact (h.stopped ht).mono (by rw [h1]; exact Nat.le_refl _) (by rw [h2]; exact Nat.le_refl _) quit_cons
  · unfold Full at *; dsimp only at hf; rwa [h1, h2] at hf

/-- Only the counters, `terminate` and the log matter. -/
theorem Tally.congr {s s' : State} (h : Tally c o s) (h1 : s'.timesteps = s.timesteps) (h2 : s'.updates = s.updates) (h3 : s'.terminate = s.terminate)
    (h4 : s'.log = s.log) : Tally c o s' :=
  ⟨by rw [h1, h4]; exact h.1, by rw [h2, h4]; exact h.2, by rw [h3, h4]; exact h.3, by rw [h3, h4]; exact h.4⟩

/-- The timestep counter is raised for an action just logged. -/
theorem Tally.count {s : State} {n : Nat} {a : Event} (h : Tally c o s) (h1 : timestepsOf c (.execute n :: a :: s.log) = timestepsOf c s.log + 1)
    (h2 : updatesOf o (.execute n :: a :: s.log) = updatesOf o s.log) : Tally c o (countTimestep c o n (execute n { s with log := a :: s.log })) := by
  unfold countTimestep execute
  dsimp only
  have ht : timestepsOf c s.log + 1 = s.timesteps + 1 := by rw [h.timesteps]
  have hst : s.terminate = 2 → Stopped c o (.execute n :: a :: s.log) := fun hh =>
    (h.stopped hh).mono (by omega) (by omega) (fun hq => quit_cons (quit_cons hq))
  split
  case isTrue hr =>
    refine ⟨by dsimp only; omega, by dsimp only; rw [h2]; exact h.updates, fun _ => ?_, fun _ => rfl⟩
    dsimp only
    simp only [Bool.or_eq_true, Bool.and_eq_true] at hr
    rcases hr with hr | hr
    · refine .inr (.inr ⟨?_, quit_now (by simpa using hr.2)⟩)
      cases hf : c.timestepFreq with
      | none => rw [hf] at hr; exact absurd hr.1 (by simp [hits])
      | some f => rfl
    · left; rw [h1, ht]; exact hr
  case isFalse hr =>
    refine ⟨by dsimp only; omega, by dsimp only; rw [h2]; exact h.updates, hst, fun hf => ?_⟩
    dsimp only at hf ⊢
    simp only [Bool.or_eq_true, not_or] at hr
    rcases hf with hf | hf
    · rw [h1, ht] at hf; exact absurd hf.2 hr.2
    · rw [h2] at hf; exact h.full (.inr hf)

theorem Tally.handleAct (hb : c.batch = false) (ha : c.alone = false) {s : State} (h : Tally c o s) (n : Nat) : Tally c o (handleAct c o n s) := by
  unfold Runner.handleAct
  rw [hb]
  exact h.count (by simp [timestepsOf, ha, Event.isAct]) rfl

theorem Tally.handleActEval (hb : c.batch = false) {s : State} (h : Tally c o s) (n : Nat) : Tally c o (handleActEval c o n s) := by
  unfold Runner.handleActEval
  simp only [hb, Bool.false_eq_true, if_false]
  by_cases ha : c.alone = true
  · rw [if_pos (by exact ha)]
    exact h.count (by simp [timestepsOf, ha, Event.isEvalAct]) rfl
  · rw [if_neg (by exact ha)]
    have ha : c.alone = false := by simpa using ha
    exact ((h.push (silent_evalAct n ha)).push (silent_execute n)).congr rfl rfl rfl rfl

theorem Tally.cutOff {s : State} (h : Tally c o s) (n : Nat) : Tally c o (cutOff n s) := by
  unfold Runner.cutOff
  split
  · exact h.congr rfl rfl rfl rfl
  · exact h

theorem Tally.handleObserve (hb : c.batch = false) {s : State} (h : Tally c o s) (n : Nat) : Tally c o (handleObserve c o n s) := by
  unfold Runner.handleObserve tell
  have h := h.cutOff n
  generalize Runner.cutOff n s = s at *
  simp only [hb, Bool.false_eq_true, if_false]
  have h1 : timestepsOf c (.observe n (s.terms n) :: s.log) = timestepsOf c s.log := by simp [timestepsOf, Event.isAct, Event.isEvalAct]
  have h2 : updatesOf o (.observe n (s.terms n) :: s.log) = s.updates + o.updated s.log := by simp [updatesOf, h.updates]
  split
  case isTrue hr => exact ⟨h.timesteps.trans h1.symm, h2.symm, fun _ => .inr (.inl (by dsimp only at *; rw [h2]; exact hr)), fun _ => rfl⟩
  case isFalse hr =>
    refine ⟨h.timesteps.trans h1.symm, h2.symm, fun hh => (h.stopped hh).mono (by dsimp only; omega) (by dsimp only; rw [h2, h.updates]; omega) quit_cons, fun hf => ?_⟩
    dsimp only at hf hr ⊢
    rcases hf with hf | hf
    · rw [h1] at hf; exact h.full (.inl hf)
    · rw [h2] at hf; exact absurd hf.2 hr

theorem Tally.countEpisode {s : State} (h : Tally c o s) : Tally c o (countEpisode c o s) := by
  unfold Runner.countEpisode
  dsimp only
  split
  case isTrue hr => exact ⟨h.1, h.2, fun hh => absurd hh (show (1 : Nat) ≠ 2 by decide), fun hf => absurd (h.full hf) (by rw [hr.1]; decide)⟩
  case isFalse => exact h.congr rfl rfl rfl rfl

theorem Tally.maybeReset {s : State} (h : Tally c o s) (code : Int) (n : Nat) : Tally c o (maybeReset c code n s) := by
  unfold Runner.maybeReset
  split
  · exact (h.push (silent_reset n)).congr rfl rfl rfl rfl
  · exact h

theorem Tally.handleTerminal {s : State} (h : Tally c o s) (n : Nat) : Tally c o (handleTerminal c o n s) :=
  (h.countEpisode.congr (s' := { Runner.countEpisode c o s with steps := set (Runner.countEpisode c o s).steps n 0 }) rfl rfl rfl rfl).maybeReset _ _

theorem Tally.handleTerminalEval {s : State} (h : Tally c o s) (n : Nat) : Tally c o (handleTerminalEval c o n s) := by
  unfold Runner.handleTerminalEval
  dsimp only
  refine Tally.maybeReset ?_ _ _
  split
  · exact h.countEpisode.congr rfl rfl rfl rfl
  · exact h.congr rfl rfl rfl rfl

theorem alone_of_train {n : Nat} (hn : n < c.envs) (he : c.isEval n = false) : c.alone = false := by
  unfold Config.alone
  unfold Config.isEval at he
  cases hc : c.evaluation
  · rfl
  · rw [hc] at he
    simp only [Bool.true_and, decide_eq_false_iff_not] at he ⊢
    omega

theorem Tally.handle (hb : c.batch = false) {s : State} (h : Tally c o s) {n : Nat} (hn : n < c.envs) : Tally c o (handle c o n s) := by
  unfold Runner.handle
  split
  · split
    · exact h.handleActEval hb n
    · split
      · exact h.handleActEval hb n
      · exact h.handleTerminalEval n
  case isFalse he =>
    have ha := alone_of_train hn (by simpa using he)
    split
    · exact h.handleAct hb ha n
    · dsimp only
      split
      · exact (h.handleObserve hb n).handleAct hb ha n
      · exact (h.handleObserve hb n).handleTerminal n

theorem Tally.visit (hb : c.batch = false) {s : State} (h : Tally c o s) {n : Nat} (hn : n < c.envs) (i : Nat) : Tally c o (visit c o i s n) := by
  unfold Runner.visit
  split
  · exact h.congr rfl rfl rfl rfl
  · rw [if_neg (by rw [hb]; decide)]
    split
    · exact (h.congr (s' := { s with terms := set s.terms n (reply o n s) }) rfl rfl rfl rfl).handle hb hn
    · exact h.congr rfl rfl rfl rfl

theorem Tally.resetAll {s : State} (h : Tally c o s) (l : List Nat) : Tally c o (resetAll l s) := by
  induction l generalizing s with
  | nil => exact h
  | cons m l ih => exact ih ((h.push (silent_reset m)).congr rfl rfl rfl rfl)

/-! ## Logs of other environments -/

/-- Events of one environment are put before the log. -/
def Adds (n : Nat) (l l' : List Event) : Prop := ∃ a : List Event, l' = a ++ l ∧ ∀ e ∈ a, e.env = n

theorem Adds.refl (n : Nat) (l : List Event) : Adds n l l := ⟨[], rfl, fun _ h => absurd h (by simp)⟩
theorem Adds.one {n : Nat} {l : List Event} (e : Event) (h : e.env = n) : Adds n l (e :: l) := ⟨[e], rfl, fun _ hm => by simp at hm; rw [hm, h]⟩
theorem Adds.trans {n : Nat} {l l' l'' : List Event} (h : Adds n l l') (k : Adds n l' l'') : Adds n l l'' := by
  obtain ⟨a, rfl, ha⟩ := h
  obtain ⟨b, rfl, hb⟩ := k
  refine ⟨b ++ a, by simp, fun e he => ?_⟩
  rcases List.mem_append.mp he with h | h
  · exact hb e h
  · exact ha e h
theorem Adds.eq {n : Nat} {l l' : List Event} (h : l' = l) : Adds n l l' := h ▸ Adds.refl n l

theorem lastOf_same {n : Nat} {e : Event} (h : e.env = n) (l : List Event) : lastOf n (e :: l) = some e := by simp [lastOf, h]
theorem lastOf_other {n : Nat} {e : Event} (h : e.env ≠ n) (l : List Event) : lastOf n (e :: l) = lastOf n l := by simp [lastOf, h]
theorem stepsOf_other {n : Nat} {e : Event} (h : e.env ≠ n) (l : List Event) : stepsOf n (e :: l) = stepsOf n l := by
  cases e <;> simp only [Event.env] at h <;> simp [stepsOf, h]
theorem over_other {n : Nat} {e : Event} (h : e.env ≠ n) {l : List Event} (k : over o n l = true) : over o n (e :: l) = true := by
  simp [over, h, k]
theorem Ended.other {n : Nat} {e : Event} (h : e.env ≠ n) {l : List Event} (k : Ended c o n l) : Ended c o n (e :: l) := by
  unfold Ended at *
  split at k
  case isTrue hc => rw [if_pos hc]; exact over_other h k
  case isFalse hc => rw [if_neg hc, lastOf_other h]; exact k

/-- What the runner believes of an environment with code `t`. -/
structure Fits (c : Config) (o : Oracle) (n : Nat) (t : Int) (pending : Bool) (steps : Nat) (l : List Event) : Prop where
  due : AllDue c o n l
  state : (0 < t ∧ steps = 0 ∧ Ended c o n l) ∨ (t ≤ 0 ∧ pending = true ∧ steps = 0 ∧ lastOf n l = some (.reset n)) ∨
    (t ≤ 0 ∧ pending = false ∧ steps = stepsOf n l ∧ lastOf n l = some (.execute n))

theorem Fits.other {n m : Nat} {t : Int} {p : Bool} {k : Nat} {l l' : List Event} (h : Fits c o n t p k l) (hm : n ≠ m) (ha : Adds m l l') :
    Fits c o n t p k l' := by
  obtain ⟨a, rfl, ha⟩ := ha
  induction a with
  | nil => exact h
  | cons e a ih =>
    have he : e.env ≠ n := by rw [ha e (by simp)]; exact fun h => hm h.symm
    obtain ⟨h1, h2⟩ := ih fun e he => ha e (by simp [he])
    refine ⟨⟨fun h => absurd h he, h1⟩, ?_⟩
    rw [List.cons_append, lastOf_other he, stepsOf_other he]
    rcases h2 with h | h | h
    · exact .inl ⟨h.1, h.2.1, h.2.2.other he⟩
    · exact .inr (.inl h)
    · exact .inr (.inr h)

theorem countTimestep_log (n : Nat) (s : State) : (countTimestep c o n s).log = s.log := (countTimestep_frame n s).2.2.2.2.1

theorem handleAct_adds (n : Nat) (s : State) : Adds n s.log (handleAct c o n s).log := by
  unfold handleAct
  dsimp only
  rw [countTimestep_log]
  refine Adds.trans ?_ (Adds.one _ rfl)
  split
  · exact Adds.refl ..
  · exact Adds.one _ rfl

theorem handleActEval_log (n : Nat) (s : State) : (handleActEval c o n s).log = .execute n :: (if c.batch then s.log else .evalAct n :: s.log) := by
  unfold handleActEval
  dsimp only
  split
  · rw [countTimestep_log]; split <;> rfl
  · split <;> rfl

theorem handleActEval_adds (n : Nat) (s : State) : Adds n s.log (handleActEval c o n s).log := by
  rw [handleActEval_log]
  refine Adds.trans ?_ (Adds.one _ rfl)
  split
  · exact Adds.refl ..
  · exact Adds.one _ rfl

theorem handleObserve_adds (n : Nat) (s : State) : Adds n s.log (handleObserve c o n s).log := by
  have h1 : (cutOff n s).log = s.log := by unfold cutOff; split <;> rfl
  have h2 : Adds n s.log (tell c o n (cutOff n s)).log := by
    unfold tell
    split
    · rw [h1]; exact Adds.refl ..
    · dsimp only; rw [h1]; exact Adds.one _ rfl
  unfold handleObserve
  dsimp only
  split <;> exact h2

theorem maybeReset_adds (code : Int) (n : Nat) (s : State) : Adds n s.log (maybeReset c code n s).log := by
  rcases (maybeReset_counters (c := c) code n s).2.2.2.2 with h | h <;> rw [h]
  · exact Adds.refl ..
  · exact Adds.one _ rfl

theorem countEpisode_log (s : State) : (countEpisode c o s).log = s.log := (countEpisode_frame s).2.2.2.2.1

theorem handleTerminal_adds (n : Nat) (s : State) : Adds n s.log (handleTerminal c o n s).log := by
  unfold handleTerminal
  have := maybeReset_adds (c := c) (-1) n { countEpisode c o s with steps := set (countEpisode c o s).steps n 0 }
  rwa [countEpisode_log] at this

theorem handleTerminalEval_adds (n : Nat) (s : State) : Adds n s.log (handleTerminalEval c o n s).log := by
  unfold handleTerminalEval
  dsimp only
  refine Adds.trans (Adds.eq ?_) (maybeReset_adds _ n _)
  dsimp only
  split
  · exact countEpisode_log s
  · rfl

theorem handle_adds (n : Nat) (s : State) : Adds n s.log (handle c o n s).log := by
  unfold handle
  dsimp only
  split
  · split
    · exact handleActEval_adds n s
    · split
      · exact handleActEval_adds n s
      · exact handleTerminalEval_adds n s
  · split
    · exact handleAct_adds n s
    · split
      · exact (handleObserve_adds n s).trans (handleAct_adds n _)
      · exact (handleObserve_adds n s).trans (handleTerminal_adds n _)

theorem visit_adds (i n : Nat) (s : State) : Adds n s.log (visit c o i s n).log := by
  unfold visit
  split
  · exact Adds.refl ..
  · split
    · exact handle_adds n s
    · split
      · exact handle_adds n { s with terms := set s.terms n (reply o n s) }
      · exact Adds.refl ..

theorem mem_due {n : Nat} {log later l : List Event} {e : Event} (h : AllDue c o n log) (hl : log = later ++ e :: l) (he : e.env = n) : Due c o n e l := by
  induction later generalizing log with
  | nil => rw [hl] at h; exact h.1 he
  | cons d later ih => rw [hl] at h; exact ih h.2 rfl

/-! ## The environment visited -/

/-- `Fits` for a state. -/
def FitsIn (c : Config) (o : Oracle) (n : Nat) (t : Int) (s : State) : Prop := Fits c o n t (s.pending n) (s.steps n) s.log

theorem stepsOf_execute (n : Nat) (l : List Event) : stepsOf n (.execute n :: l) = stepsOf n l + 1 := by simp [stepsOf]

/-- An action is decided and executed. -/
theorem fits_act {n : Nat} {t : Int} {steps : Nat} {l : List Event} {a : Event} (hs : steps = stepsOf n l) (hd : AllDue c o n l) (ht : t ≤ 0)
    (ha : a = if c.isEval n then .evalAct n else .act n) (hdue : Due c o n a l) :
    Fits c o n t false (steps + 1) (.execute n :: a :: l) := by
  have henv : a.env = n := by rw [ha]; split <;> rfl
  have hsa : stepsOf n (a :: l) = stepsOf n l := by rw [ha]; split <;> rfl
  refine ⟨⟨fun _ => ?_, fun _ => hdue, hd⟩, .inr (.inr ⟨ht, rfl, ?_, lastOf_same rfl _⟩)⟩
  · show lastOf n (a :: l) = some _
    rw [lastOf_same henv, ha]
  · rw [stepsOf_execute, hsa, hs]

theorem fits_handleAct (hb : c.batch = false) {n : Nat} (he : c.isEval n = false) (s : State) (hs : s.steps n = stepsOf n s.log)
    (hd : AllDue c o n s.log) (ht : s.terms n ≤ 0) (hdue : lastOf n s.log = some (.reset n) ∨ lastOf n s.log = some (.observe n 0)) :
    FitsIn c o n ((handleAct c o n s).terms n) (handleAct c o n s) := by
  unfold handleAct
  simp only [hb, Bool.false_eq_true, if_false]
  obtain ⟨-, h2, h3, h4, h5, -⟩ := countTimestep_frame (c := c) (o := o) n (execute n { s with log := .act n :: s.log })
  unfold FitsIn
  rw [h2, h3, h4, h5]
  unfold execute
  dsimp only
  rw [set_same, set_same]
  exact fits_act hs hd ht (by rw [he]; rfl) ⟨he, hdue⟩

theorem fits_handleActEval (hb : c.batch = false) {n : Nat} (he : c.isEval n = true) (s : State) (hs : s.steps n = stepsOf n s.log)
    (hd : AllDue c o n s.log) (ht : s.terms n ≤ 0)
    (hdue : lastOf n s.log = some (.reset n) ∨ (lastOf n s.log = some (.execute n) ∧ answer o n s.log = 0)) :
    FitsIn c o n ((handleActEval c o n s).terms n) (handleActEval c o n s) := by
  have key : FitsIn c o n ((execute n { s with log := .evalAct n :: s.log }).terms n) (execute n { s with log := .evalAct n :: s.log }) := by
    unfold FitsIn execute
    dsimp only
    rw [set_same, set_same]
    exact fits_act hs hd ht (by rw [he]; rfl) ⟨he, hdue⟩
  unfold handleActEval
  simp only [hb, Bool.false_eq_true, if_false]
  split
  · obtain ⟨-, h2, h3, h4, h5, -⟩ := countTimestep_frame (c := c) (o := o) n (execute n { s with log := .evalAct n :: s.log })
    unfold FitsIn
    rw [h2, h3, h4, h5]
    exact key
  · exact key

theorem stepsOf_reset {n : Nat} {l : List Event} (h : lastOf n l = some (.reset n)) : stepsOf n l = 0 := by
  induction l with
  | nil => rfl
  | cons e l ih =>
    by_cases he : e.env = n
    · rw [lastOf_same he] at h
      have : e = .reset n := by simpa using h
      rw [this]; simp [stepsOf]
    · rw [lastOf_other he] at h
      rw [stepsOf_other he]; exact ih h

/-- The end of an episode, with or without a reset. -/
theorem fits_end {n : Nat} (s : State) (code : Int) (hcode : code ≤ 0) (hd : AllDue c o n s.log) (ht : 0 < s.terms n) (hend : Ended c o n s.log) :
    FitsIn c o n ((maybeReset c code n { s with steps := set s.steps n 0 }).terms n) (maybeReset c code n { s with steps := set s.steps n 0 }) := by
  unfold maybeReset
  split
  · unfold FitsIn startReset
    dsimp only
    rw [set_same, set_same, set_same]
    exact ⟨⟨fun _ => .inr hend, hd⟩, .inr (.inl ⟨hcode, rfl, rfl, lastOf_same rfl _⟩)⟩
  · unfold FitsIn
    dsimp only
    rw [set_same]
    exact ⟨hd, .inl ⟨ht, rfl, hend⟩⟩

theorem over_now {n : Nat} {l : List Event} (h : lastOf n l = some (.execute n)) (ha : 0 < answer o n l) : over o n l = true := by
  cases l with
  | nil => simp [lastOf] at h
  | cons e l => unfold over; simp [h, ha]

theorem fits_eval (hb : c.batch = false) {n : Nat} (he : c.isEval n = true) (s : State) (h : Fits c o n (s.prev n) (s.pending n) (s.steps n) s.log)
    (hp : s.prev n ≤ 0) (ht : s.terms n = reply o n s) : FitsIn c o n ((handle c o n s).terms n) (handle c o n s) := by
  unfold handle
  rw [if_pos he]
  obtain ⟨hd, h | ⟨-, h1, h2, h3⟩ | ⟨-, h1, h2, h3⟩⟩ := h
  · omega
  · have hr : s.terms n = -1 := by rw [ht, reply, h1]; rfl
    rw [if_pos hr]
    exact fits_handleActEval hb he s (by rw [h2, stepsOf_reset h3]) hd (by omega) (.inl h3)
  · have hr : s.terms n = answer o n s.log := by rw [ht, reply, h1]; simp only [Bool.false_eq_true, if_false]; rw [h2]; rfl
    rw [if_neg (by omega)]
    split
    · exact fits_handleActEval hb he s h2 hd (by omega) (.inr ⟨h3, by omega⟩)
    · have hend : Ended c o n s.log := by unfold Ended; rw [if_pos he]; exact over_now h3 (by omega)
      unfold handleTerminalEval
      dsimp only
      split
      · obtain ⟨-, g2, g3, g4, g5, -⟩ := countEpisode_frame (c := c) (o := o) s
        exact fits_end _ 0 (by decide) (by rw [g5]; exact hd) (by rw [g2]; omega) (by rw [g5]; exact hend)
      · exact fits_end _ 0 (by decide) hd (by omega) hend

theorem fits_train (hb : c.batch = false) {n : Nat} (he : c.isEval n = false) (s : State) (h : Fits c o n (s.prev n) (s.pending n) (s.steps n) s.log)
    (hT : Tally c o s) (hp : s.prev n ≤ 0) (ht : s.terms n = reply o n s) : FitsIn c o n ((handle c o n s).terms n) (handle c o n s) := by
  unfold handle
  rw [if_neg (by rw [he]; decide)]
  obtain ⟨hd, h | ⟨-, h1, h2, h3⟩ | ⟨-, h1, h2, h3⟩⟩ := h
  · omega
  · have hr : s.terms n = -1 := by rw [ht, reply, h1]; rfl
    rw [if_pos hr]
    exact fits_handleAct hb he s (by rw [h2, stepsOf_reset h3]) hd (by omega) (.inl h3)
  · have hr : s.terms n = answer o n s.log := by rw [ht, reply, h1]; simp only [Bool.false_eq_true, if_false]; rw [h2]; rfl
    rw [if_neg (by omega)]
    -- what the agent is told
    have hobs : ∃ t : Int, (handleObserve c o n s).log = .observe n t :: s.log ∧ (handleObserve c o n s).terms n = t ∧
        (handleObserve c o n s).steps n = s.steps n ∧ 0 ≤ t ∧
        ((t = answer o n s.log ∧ (t = 0 → ¬ Full c o s.log)) ∨ (answer o n s.log = 0 ∧ t = 2 ∧ Stopped c o s.log)) := by
      have hk : ∃ t : Int, (cutOff n s).terms n = t ∧ (cutOff n s).log = s.log ∧ (cutOff n s).steps n = s.steps n ∧ 0 ≤ t ∧
          ((t = answer o n s.log ∧ (t = 0 → ¬ Full c o s.log)) ∨ (answer o n s.log = 0 ∧ t = 2 ∧ Stopped c o s.log)) := by
        unfold cutOff
        split
        case isTrue hc => exact ⟨2, set_same .., rfl, rfl, by decide, .inr ⟨by omega, rfl, hT.stopped hc.2⟩⟩
        case isFalse hc => exact ⟨_, rfl, rfl, rfl, by omega, .inl ⟨hr, fun h0 hf => hc ⟨h0, hT.full hf⟩⟩⟩
      obtain ⟨t, k1, k2, k3, k4, k5⟩ := hk
      refine ⟨t, ?_, ?_, ?_, k4, k5⟩ <;> unfold handleObserve tell <;> simp only [hb, Bool.false_eq_true, if_false] <;> split <;> dsimp only
      all_goals first | rw [k1, k2] | exact k1 | exact k3
    obtain ⟨t, g1, g2, g3, g4, g5⟩ := hobs
    have hd' : AllDue c o n (handleObserve c o n s).log := by rw [g1]; exact ⟨fun _ => ⟨he, h3, g5⟩, hd⟩
    have hl : lastOf n (handleObserve c o n s).log = some (.observe n t) := by rw [g1]; exact lastOf_same rfl _
    dsimp only
    generalize handleObserve c o n s = s' at *
    split
    case isTrue h0 =>
      have : t = 0 := by omega
      subst this
      exact fits_handleAct hb he s' (by rw [g3, h2, g1]; rfl) hd' (by omega) (.inr hl)
    case isFalse h0 =>
      have hend : Ended c o n s'.log := by
        unfold Ended
        rw [if_neg (by rw [he]; decide), hl]
        simp [Event.isEnd]
        omega
      unfold handleTerminal
      obtain ⟨-, q2, -, -, q5, -⟩ := countEpisode_frame (c := c) (o := o) s'
      exact fits_end _ (-1) (by decide) (by rw [q5]; exact hd') (by rw [q2]; omega) (by rw [q5]; exact hend)

theorem fits_visit (hb : c.batch = false) (i n : Nat) (s : State) (h : FitsIn c o n (s.prev n) s) (hT : Tally c o s) :
    FitsIn c o n ((visit c o i s n).terms n) (visit c o i s n) := by
  unfold visit
  split
  case isTrue => unfold FitsIn; dsimp only; rw [set_same]; exact h
  case isFalse hp =>
    rw [if_neg (by rw [hb]; decide)]
    split
    case isFalse => unfold FitsIn; dsimp only; rw [set_same]; exact h
    case isTrue =>
      have hterm : ∀ s' : State, s'.terms n = reply o n s' → s'.prev = s.prev → FitsIn c o n (s'.prev n) s' → Tally c o s' →
          FitsIn c o n ((handle c o n s').terms n) (handle c o n s') := by
        intro s' ht hpp hf hT
        cases he : c.isEval n with
        | true => exact fits_eval hb he s' hf (by rw [hpp]; omega) ht
        | false => exact fits_train hb he s' hf hT (by rw [hpp]; omega) ht
      exact hterm _ (set_same ..) rfl h (hT.congr rfl rfl rfl rfl)

/-! ## The whole run -/

/-- All environments are as the runner believes, and so are the counters. -/
def Traced (c : Config) (o : Oracle) (s : State) : Prop := Tally c o s ∧ ∀ n, n < c.envs → FitsIn c o n (s.prev n) s

theorem fits_resetAll {l : List Nat} (hl : l.Nodup) {n : Nat} {s : State} (h : FitsIn c o n (s.prev n) s) (hn : n ∈ l → 0 < s.prev n) :
    FitsIn c o n ((resetAll l s).prev n) (resetAll l s) := by
  induction l generalizing s with
  | nil => exact h
  | cons m l ih =>
    rw [List.nodup_cons] at hl
    change FitsIn c o n ((resetAll l _).prev n) (resetAll l _)
    refine ih hl.2 ?_ ?_
    · by_cases hm : n = m
      · subst hm
        unfold FitsIn startReset
        dsimp only
        rw [set_same, set_same]
        have hp := hn (by simp)
        obtain ⟨hd, h | h | h⟩ := h
        · exact ⟨⟨fun _ => .inr h.2.2, hd⟩, .inr (.inl ⟨by decide, rfl, h.2.1, lastOf_same rfl _⟩)⟩
        · omega
        · omega
      · unfold FitsIn startReset
        dsimp only
        rw [set_other _ _ hm, set_other _ _ hm]
        exact Fits.other h hm (Adds.one _ rfl)
    · intro hin
      have hm : n ≠ m := fun h => hl.1 (h ▸ hin)
      show 0 < (startReset m { s with prev := set s.prev m (-1) }).prev n
      unfold startReset
      dsimp only
      rw [set_other _ _ hm]
      exact hn (by simp [hin])

theorem Traced.iteration (hb : c.batch = false) {s : State} (h : Traced c o s) (i : Nat) : Traced c o (iteration c o i s) := by
  have hf := range_fold_ind (fun k (s : State) => Tally c o s ∧ ∀ n, n < c.envs → FitsIn c o n (if n < k then s.terms n else s.prev n) s) (visit c o i) c.envs s
    ⟨h.1, fun n hn => by rw [if_neg (by omega)]; exact h.2 n hn⟩ (fun k s hk ⟨h1, h2⟩ => by
      refine ⟨h1.visit hb hk i, fun n hn => ?_⟩
      by_cases hnk : n = k
      · subst hnk
        have := h2 n hn
        rw [if_neg (by omega)] at this
        rw [if_pos (by omega)]
        exact fits_visit hb i n s this h1
      · have hs := visit_same (c := c) (o := o) hnk i s
        have := Fits.other (h2 n hn) hnk (visit_adds (c := c) (o := o) i k s)
        unfold FitsIn
        rw [hs.prev, hs.terms, hs.pending, hs.steps]
        by_cases hlt : n < k
        · rw [if_pos hlt] at this; rw [if_pos (by omega)]; exact this
        · rw [if_neg hlt] at this; rw [if_neg (by omega)]; exact this)
  unfold Runner.iteration
  have hj : jointly c o s = s := by unfold jointly; rw [if_neg (by rw [hb]; decide)]
  rw [hj]
  dsimp only
  generalize (List.range c.envs).foldl (visit c o i) s = s1 at hf
  have hg : Traced c o { s1 with prev := s1.terms } :=
    ⟨hf.1.congr rfl rfl rfl rfl, fun n hn => by have := hf.2 n hn; rw [if_pos hn] at this; exact this⟩
  rw [syncReset_eq]
  split
  case isFalse => exact hg
  case isTrue hs =>
    obtain ⟨hnd, hlt⟩ := toReset_nodup (c := c) { s1 with prev := s1.terms }
    refine ⟨hg.1.resetAll _, fun n hn => fits_resetAll hnd (hg.2 n hn) fun _ => hs.2 n hn⟩

theorem Traced.init : Traced c o (init c) := by
  have h := range_fold_ind (fun k (s : State) => Tally c o s ∧ s.prev = (fun _ => -1) ∧ s.steps = (fun _ => 0) ∧
      (∀ n, n < k → FitsIn c o n (-1) s) ∧ ∀ n, k ≤ n → lastOf n s.log = none ∧ AllDue c o n s.log)
    (fun s n => startReset n s) c.envs ⟨fun _ => -1, fun _ => -1, fun _ => false, fun _ => 0, 0, 0, 0, 0, []⟩
    ⟨⟨rfl, rfl, fun h => absurd h (show (0 : Nat) ≠ 2 by decide), fun h => by
      rcases h with h | h
      · exact absurd h.1 (Nat.lt_irrefl 0)
      · exact absurd h.1 (Nat.lt_irrefl 0)⟩, rfl, rfl, fun n hn => by omega, fun n _ => ⟨rfl, trivial⟩⟩
    (fun k s _ ⟨h1, h2, h3, h4, h5⟩ => by
      refine ⟨(h1.push (silent_reset k)).congr rfl rfl rfl rfl, h2, h3, fun n hn => ?_, fun n hn => ?_⟩
      · by_cases hk : n = k
        · subst hk
          unfold FitsIn startReset
          dsimp only
          rw [set_same, h3]
          exact ⟨⟨fun _ => .inl (h5 n (by omega)).1, (h5 n (by omega)).2⟩, .inr (.inl ⟨by decide, rfl, rfl, lastOf_same rfl _⟩)⟩
        · unfold FitsIn startReset
          dsimp only
          rw [set_other _ _ hk]
          exact Fits.other (h4 n (by omega)) hk (Adds.one _ rfl)
      · have hne : (Event.reset k).env ≠ n := by show k ≠ n; omega
        unfold startReset
        dsimp only
        rw [lastOf_other hne]
        exact ⟨(h5 n (by omega)).1, fun h => absurd h hne, (h5 n (by omega)).2⟩)
  obtain ⟨h1, h2, -, h4, -⟩ := h
  refine ⟨h1, fun n hn => ?_⟩
  have := h4 n hn
  unfold Runner.init
  rw [h2]
  exact this

theorem traced_run (hb : c.batch = false) (k : Nat) : Traced c o (run c o k) := by
  induction k with
  | zero => exact Traced.init
  | succ k ih =>
    unfold run
    split
    · exact ih.iteration hb k
    · exact ih

end Verif.Runner
