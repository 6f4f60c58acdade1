import Verif.Runner.Spec

/-! # Lemmas about the runner loop (separate agent calls) -/

namespace Verif.Runner

variable {c : Config} {o : Oracle}

theorem set_same {α : Type} (f : Nat → α) (n : Nat) (a : α) : set f n a n = a := by simp [set]
theorem set_other {α : Type} (f : Nat → α) {n m : Nat} (a : α) (h : m ≠ n) : set f n a m = f m := by simp [set, h]

/-! ## Fields that counters leave alone -/

theorem countTimestep_frame (n : Nat) (s : State) : (countTimestep c o n s).prev = s.prev ∧ (countTimestep c o n s).terms = s.terms ∧
    (countTimestep c o n s).pending = s.pending ∧ (countTimestep c o n s).steps = s.steps ∧ (countTimestep c o n s).log = s.log ∧
    (countTimestep c o n s).episodes = s.episodes ∧ (countTimestep c o n s).updates = s.updates ∧
    (countTimestep c o n s).timesteps = s.timesteps + 1 := by
  unfold countTimestep
  dsimp only
  split <;> simp

theorem countEpisode_frame (s : State) : (countEpisode c o s).prev = s.prev ∧ (countEpisode c o s).terms = s.terms ∧
    (countEpisode c o s).pending = s.pending ∧ (countEpisode c o s).steps = s.steps ∧ (countEpisode c o s).log = s.log ∧
    (countEpisode c o s).timesteps = s.timesteps ∧ (countEpisode c o s).updates = s.updates ∧
    (countEpisode c o s).episodes = s.episodes + 1 := by
  unfold countEpisode
  dsimp only
  split <;> simp

/-! ## Other environments -/

/-- Nothing changed as far as environment `m` is concerned. -/
structure Same (m : Nat) (s s' : State) : Prop where
  prev : s'.prev = s.prev
  terms : s'.terms m = s.terms m
  pending : s'.pending m = s.pending m
  steps : s'.steps m = s.steps m
  phase : phase m s'.log = phase m s.log

theorem Same.refl (m : Nat) (s : State) : Same m s s := ⟨rfl, rfl, rfl, rfl, rfl⟩
theorem Same.trans {m : Nat} {s t u : State} (h : Same m s t) (k : Same m t u) : Same m s u :=
  ⟨k.prev.trans h.prev, k.terms.trans h.terms, k.pending.trans h.pending, k.steps.trans h.steps, k.phase.trans h.phase⟩

theorem phase_other {m : Nat} {e : Event} (h : e.env ≠ m) (log : List Event) : phase m (e :: log) = phase m log := by
  simp [phase, h]

theorem countTimestep_same (m n : Nat) (s : State) : Same m s (countTimestep c o n s) := by
  obtain ⟨h1, h2, h3, h4, h5, -⟩ := countTimestep_frame (c := c) (o := o) n s
  exact ⟨h1, by rw [h2], by rw [h3], by rw [h4], by rw [h5]⟩

theorem countEpisode_same (m : Nat) (s : State) : Same m s (countEpisode c o s) := by
  obtain ⟨h1, h2, h3, h4, h5, -⟩ := countEpisode_frame (c := c) (o := o) s
  exact ⟨h1, by rw [h2], by rw [h3], by rw [h4], by rw [h5]⟩

theorem execute_same {m n : Nat} (h : m ≠ n) (s : State) : Same m s (execute n s) :=
  ⟨rfl, rfl, set_other _ _ h, set_other _ _ h, phase_other (fun e => h e.symm) _⟩

theorem log_same {m : Nat} {e : Event} (h : e.env ≠ m) (s : State) : Same m s { s with log := e :: s.log } :=
  ⟨rfl, rfl, rfl, rfl, phase_other h _⟩

theorem handleAct_same {m n : Nat} (h : m ≠ n) (s : State) : Same m s (handleAct c o n s) := by
  unfold handleAct
  dsimp only
  split
  · exact (execute_same h s).trans (countTimestep_same m n _)
  · exact (log_same (e := .act n) (fun e => h e.symm) s).trans ((execute_same h _).trans (countTimestep_same m n _))

theorem handleActEval_same {m n : Nat} (h : m ≠ n) (s : State) : Same m s (handleActEval c o n s) := by
  have key : ∀ s : State, Same m s (if (c.evaluation && decide (c.envs = 1)) = true then countTimestep c o n (execute n s) else execute n s) := by
    intro s
    split
    · exact (execute_same h s).trans (countTimestep_same m n _)
    · exact execute_same h s
  unfold handleActEval
  dsimp only
  by_cases hb : c.batch = true
  · simp only [hb, if_true]; exact key s
  · simp only [hb]; exact (log_same (e := .evalAct n) (fun e => h e.symm) s).trans (key _)

theorem cutOff_same {m n : Nat} (h : m ≠ n) (s : State) : Same m s (cutOff n s) := by
  unfold cutOff
  split
  · exact ⟨rfl, set_other _ _ h, rfl, rfl, rfl⟩
  · exact Same.refl m s

theorem tell_same {m n : Nat} (h : m ≠ n) (s : State) : Same m s (tell c o n s) := by
  unfold tell
  split
  · exact Same.refl m s
  · exact ⟨rfl, rfl, rfl, rfl, phase_other (e := .observe n _) (fun e => h e.symm) _⟩

theorem handleObserve_same {m n : Nat} (h : m ≠ n) (s : State) : Same m s (handleObserve c o n s) := by
  have k := (cutOff_same h s).trans (tell_same (c := c) (o := o) h _)
  unfold handleObserve
  dsimp only
  split
  · exact ⟨k.prev, k.terms, k.pending, k.steps, k.phase⟩
  · exact k

theorem maybeReset_same {m n : Nat} (h : m ≠ n) (code : Int) (s : State) : Same m s (maybeReset c code n s) := by
  unfold maybeReset
  split
  · exact ⟨rfl, set_other _ _ h, set_other _ _ h, rfl, phase_other (e := .reset n) (fun e => h e.symm) _⟩
  · exact Same.refl m s

theorem steps_same {m n : Nat} (h : m ≠ n) (k : Nat) (s : State) : Same m s { s with steps := set s.steps n k } :=
  ⟨rfl, rfl, rfl, set_other _ _ h, rfl⟩

theorem handleTerminal_same {m n : Nat} (h : m ≠ n) (s : State) : Same m s (handleTerminal c o n s) :=
  (countEpisode_same m s).trans ((steps_same h 0 _).trans (maybeReset_same h _ _))

theorem handleTerminalEval_same {m n : Nat} (h : m ≠ n) (s : State) : Same m s (handleTerminalEval c o n s) := by
  unfold handleTerminalEval
  dsimp only
  split
  · exact (countEpisode_same m s).trans ((steps_same h 0 _).trans (maybeReset_same h _ _))
  · exact (steps_same h 0 s).trans (maybeReset_same h _ _)

theorem handle_same {m n : Nat} (h : m ≠ n) (s : State) : Same m s (handle c o n s) := by
  unfold handle
  dsimp only
  split
  · split
    · exact handleActEval_same h s
    · split
      · exact handleActEval_same h s
      · exact handleTerminalEval_same h s
  · split
    · exact handleAct_same h s
    · split
      · exact (handleObserve_same h s).trans (handleAct_same h _)
      · exact (handleObserve_same h s).trans (handleTerminal_same h _)

theorem terms_same {m n : Nat} (h : m ≠ n) (t : Int) (s : State) : Same m s { s with terms := set s.terms n t } :=
  ⟨rfl, set_other _ _ h, rfl, rfl, rfl⟩

theorem visit_same {m n : Nat} (h : m ≠ n) (i : Nat) (s : State) : Same m s (visit c o i s n) := by
  unfold visit
  split
  · exact terms_same h _ s
  · split
    · exact handle_same h s
    · split
      · exact (terms_same h _ s).trans (handle_same h _)
      · exact terms_same h _ s

/-- Visiting leaves `prev_terminals` alone. -/
theorem visit_prev (n i : Nat) (s : State) : (visit c o i s n).prev = s.prev := (visit_same (m := n + 1) (by omega) i s).prev

/-! ## The environment visited -/

/-- The code the runner keeps for an environment agrees with what happened to it. -/
def EnvOk (t : Int) (pending : Bool) (ph : Phase) : Prop :=
  (0 < t ∧ ph = .ended) ∨ (t ≤ 0 ∧ pending = true ∧ ph = .resetting) ∨ (t ≤ 0 ∧ pending = false ∧ ph = .executing)

/-- What a visit does to a training environment, with separate agent calls. -/
inductive Visited (c : Config) (o : Oracle) (i n : Nat) (s s' : State) : Prop where
  | idle (reason : 0 < s.prev n ∨ (c.syncTimesteps || o.ready i n) = false) (h : s'.log = s.log) (terms : s'.terms n = s.prev n) (pending : s'.pending n = s.pending n) (steps : s'.steps n = s.steps n)
      (timesteps : s'.timesteps = s.timesteps) (episodes : s'.episodes = s.episodes) (updates : s'.updates = s.updates)
      (terminate : s'.terminate = s.terminate)
  | start (before : phase n s.log = .resetting) (log : s'.log = .execute n :: .act n :: s.log) (terms : s'.terms n = -1)
      (pending : s'.pending n = false) (steps : s'.steps n = s.steps n + 1) (timesteps : s'.timesteps = s.timesteps + 1)
      (episodes : s'.episodes = s.episodes) (updates : s'.updates = s.updates)
      (terminate : s'.terminate = s.terminate ∧ reached s'.timesteps c.numTimesteps = false ∨ s'.terminate = 2)
      (why : s'.terminate ≠ s.terminate → reached s'.timesteps c.numTimesteps = true ∨ ∃ l, o.callback l = false)
  | goOn (before : phase n s.log = .executing) (log : s'.log = .execute n :: .act n :: .observe n 0 :: s.log)
      (terms : s'.terms n = 0) (pending : s'.pending n = false) (steps : s'.steps n = s.steps n + 1)
      (code : o.code s.log n (s.steps n) = 0) (was : s.terminate ≠ 2)
      (timesteps : s'.timesteps = s.timesteps + 1) (episodes : s'.episodes = s.episodes) (updates : s.updates ≤ s'.updates)
      (terminate : s'.terminate = s.terminate ∧ reached s'.timesteps c.numTimesteps = false ∧ reached s'.updates c.numUpdates = false ∨
        s'.terminate = 2)
      (why : s'.terminate ≠ s.terminate →
        reached s'.timesteps c.numTimesteps = true ∨ reached s'.updates c.numUpdates = true ∨ ∃ l, o.callback l = false)
  | finish (before : phase n s.log = .executing) (t : Int) (ht : 0 < t) (log : s'.log = .observe n t :: s.log) (terms : s'.terms n = t)
      (pending : s'.pending n = s.pending n) (steps : s'.steps n = 0)
      (timesteps : s'.timesteps = s.timesteps) (episodes : s'.episodes = s.episodes + 1) (updates : s.updates ≤ s'.updates)
      (terminate : s'.terminate ≠ 0 ∨ c.syncEpisodes = true) (keeps : s.terminate = 2 → s'.terminate = 2)
      (still : s'.terminate = 0 → s.terminate = 0 ∧ reached s'.episodes c.numEpisodes = false ∧ reached s'.updates c.numUpdates = false)
      (once : s.terminate = 1 → s'.terminate ≠ 0)
      (why : s'.terminate ≠ s.terminate →
        reached s'.episodes c.numEpisodes = true ∨ reached s'.updates c.numUpdates = true ∨ ∃ l, o.callback l = false)
      (two : s'.terminate = 2 → s.terminate = 2 ∨ reached s'.updates c.numUpdates = true)
      (halt : reached s'.updates c.numUpdates = true → s'.terminate = 2)
  | restart (before : phase n s.log = .executing) (t : Int) (ht : 0 < t) (log : s'.log = .reset n :: .observe n t :: s.log)
      (terms : s'.terms n = -1) (pending : s'.pending n = true) (steps : s'.steps n = 0)
      (timesteps : s'.timesteps = s.timesteps) (episodes : s'.episodes = s.episodes + 1) (updates : s.updates ≤ s'.updates)
      (terminate : s'.terminate = 0) (was : s.terminate = 0) (sync : c.syncEpisodes = false)
      (limit : reached s'.episodes c.numEpisodes = false ∧ reached s'.updates c.numUpdates = false)

end Verif.Runner
