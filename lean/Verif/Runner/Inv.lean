import Verif.Runner.Visit

/-! # Invariants of the runner loop -/

namespace Verif.Runner

variable {c : Config} {o : Oracle}

theorem range_fold_ind {α : Type} (P : Nat → α → Prop) (f : α → Nat → α) (N : Nat) (a : α) (h0 : P 0 a)
    (hs : ∀ k a, k < N → P k a → P (k + 1) (f a k)) : P N ((List.range N).foldl f a) := by
  induction N with
  | zero => exact h0
  | succ N ih =>
    rw [List.range_succ, List.foldl_append]
    exact hs N _ (by omega) (ih fun k a hk => hs k a (by omega))

theorem train_le : c.train ≤ c.envs := by unfold Config.train; omega

theorem isEval_of_lt {n : Nat} (h : n < c.train) : c.isEval n = false := by
  unfold Config.train at h
  unfold Config.isEval
  cases hc : c.evaluation <;> simp [hc] at h ⊢
  omega

theorem eval_of_ge {n : Nat} (h : c.train ≤ n) (hn : n < c.envs) : c.evaluation = true ∧ n = c.envs - 1 := by
  unfold Config.train at h
  cases hc : c.evaluation <;> simp [hc] at h ⊢ <;> omega

/-! ## Counting environments -/

theorem countP_change (p q : Nat → Bool) (N n : Nat) (hn : n < N) (h : ∀ m, m ≠ n → p m = q m) :
    (List.range N).countP p + (if q n then 1 else 0) = (List.range N).countP q + (if p n then 1 else 0) := by
  induction N with
  | zero => omega
  | succ N ih =>
    simp only [List.range_succ, List.countP_append, List.countP_singleton]
    by_cases hN : n = N
    · subst hN
      have : (List.range n).countP p = (List.range n).countP q := by
        apply List.countP_congr
        intro m hm
        rw [h m (by have := List.mem_range.mp hm; omega)]
      omega
    · have := ih (by omega)
      rw [h N (by omega)]
      omega

/-- Number of training environments in a phase. -/
def Config.inPhase (c : Config) (p : Phase → Bool) (log : List Event) : Nat := (List.range c.train).countP fun n => p (phase n log)

theorem inPhase_le (p : Phase → Bool) (log : List Event) : c.inPhase p log ≤ c.train := by
  unfold Config.inPhase
  have := List.countP_le_length (p := fun n => p (phase n log)) (l := List.range c.train)
  rwa [List.length_range] at this

theorem inPhase_pos (p : Phase → Bool) (log : List Event) (n : Nat) (hn : n < c.train) (h : p (phase n log) = true) : 0 < c.inPhase p log :=
  List.countP_pos_iff.mpr ⟨n, List.mem_range.mpr hn, h⟩

theorem inPhase_lt (p : Phase → Bool) (log : List Event) (n : Nat) (hn : n < c.train) (h : p (phase n log) = false) :
    c.inPhase p log < c.train := by
  have h1 := countP_change (fun m => p (phase m log)) (fun m => if m = n then true else p (phase m log)) c.train n hn
    (by intro m hm; simp [hm])
  have h2 := List.countP_le_length (p := fun m => if m = n then true else p (phase m log)) (l := List.range c.train)
  rw [List.length_range] at h2
  simp only [h, if_true, Bool.false_eq_true, if_false] at h1
  unfold Config.inPhase
  omega

theorem inPhase_change (p : Phase → Bool) {log log' : List Event} {n : Nat} (hn : n < c.train) (h : ∀ m, m ≠ n → phase m log' = phase m log) :
    c.inPhase p log' + (if p (phase n log) then 1 else 0) = c.inPhase p log + (if p (phase n log') then 1 else 0) :=
  countP_change (fun m => p (phase m log')) (fun m => p (phase m log)) c.train n hn fun m hm => by simp only [h m hm]

theorem inPhase_congr (p : Phase → Bool) {log log' : List Event} (h : ∀ m, m < c.train → phase m log' = phase m log) :
    c.inPhase p log' = c.inPhase p log :=
  List.countP_congr fun m hm => by rw [h m (List.mem_range.mp hm)]

theorem inPhase_zero (p : Phase → Bool) (log : List Event) (h : ∀ n, n < c.train → p (phase n log) = false) : c.inPhase p log = 0 :=
  List.countP_eq_zero.mpr fun n hn => by rw [h n (List.mem_range.mp hn)]; decide

/-! ## Phases after a visit -/

theorem phase_reset (n : Nat) (log : List Event) : phase n (.reset n :: log) = (phase n log).next (.reset n) := if_pos rfl
theorem phase_act (n : Nat) (log : List Event) : phase n (.act n :: log) = (phase n log).next (.act n) := if_pos rfl
theorem phase_execute (n : Nat) (log : List Event) : phase n (.execute n :: log) = (phase n log).next (.execute n) := if_pos rfl
theorem phase_observe (n : Nat) (t : Int) (log : List Event) : phase n (.observe n t :: log) = (phase n log).next (.observe n t) := if_pos rfl

theorem phase_start {n : Nat} {log : List Event} (h : phase n log = .resetting) : phase n (.execute n :: .act n :: log) = .executing := by
  rw [phase_execute, phase_act, h]; rfl

theorem phase_goOn {n : Nat} {log : List Event} (h : phase n log = .executing) :
    phase n (.execute n :: .act n :: .observe n 0 :: log) = .executing := by
  rw [phase_execute, phase_act, phase_observe, h]; rfl

theorem phase_finish {n : Nat} {log : List Event} {t : Int} (h : phase n log = .executing) (ht : 0 < t) :
    phase n (.observe n t :: log) = .ended := by
  rw [phase_observe, h]; exact if_neg (by omega)

theorem phase_restart {n : Nat} {log : List Event} {t : Int} (h : phase n log = .executing) (ht : 0 < t) :
    phase n (.reset n :: .observe n t :: log) = .resetting := by
  rw [phase_reset, phase_finish h ht]; rfl

theorem Visited.ok {i n : Nat} {s s' : State} (v : Visited c o i n s s') (hok : EnvOk (s.prev n) (s.pending n) (phase n s.log)) :
    EnvOk (s'.terms n) (s'.pending n) (phase n s'.log) := by
  cases v with
  | idle _ h terms pending => rw [h, terms, pending]; exact hok
  | start before log terms pending => rw [log, terms, pending, phase_start before]; exact .inr (.inr ⟨by decide, rfl, rfl⟩)
  | goOn before log terms pending => rw [log, terms, pending, phase_goOn before]; exact .inr (.inr ⟨by decide, rfl, rfl⟩)
  | finish before t ht log terms => rw [log, terms, phase_finish before ht]; exact .inl ⟨ht, rfl⟩
  | restart before t ht log terms pending => rw [log, terms, pending, phase_restart before ht]; exact .inr (.inl ⟨by decide, rfl, rfl⟩)

/-! ## The evaluation environment beside others -/

theorem maybeReset_counters (code : Int) (n : Nat) (s : State) :
    let s' := maybeReset c code n s
    s'.timesteps = s.timesteps ∧ s'.episodes = s.episodes ∧ s'.updates = s.updates ∧ s'.terminate = s.terminate ∧
    (s'.log = s.log ∨ s'.log = .reset n :: s.log) := by
  unfold maybeReset
  split
  · exact ⟨rfl, rfl, rfl, rfl, .inr rfl⟩
  · exact ⟨rfl, rfl, rfl, rfl, .inl rfl⟩

/-- Counters agree, and so does the number of actions and ends in the log. -/
structure Quiet (s s' : State) : Prop where
  timesteps : s'.timesteps = s.timesteps
  episodes : s'.episodes = s.episodes
  updates : s'.updates = s.updates
  terminate : s'.terminate = s.terminate
  acts : s'.log.countP Event.isAct = s.log.countP Event.isAct
  ends : s'.log.countP Event.isEnd = s.log.countP Event.isEnd

theorem handle_eval (h1 : c.envs ≠ 1) {n : Nat} (he : c.isEval n = true) (s : State) : Quiet s (handle c o n s) := by
  have key : (c.evaluation && decide (c.envs = 1)) = false := by simp [h1]
  have a : Quiet s (handleActEval c o n s) := by
    unfold handleActEval
    simp only [key, Bool.false_eq_true, if_false]
    split
    · exact ⟨rfl, rfl, rfl, rfl, by simp [execute, Event.isAct], by simp [execute, Event.isEnd]⟩
    · exact ⟨rfl, rfl, rfl, rfl, by simp [execute, Event.isAct], by simp [execute, Event.isEnd]⟩
  have b : Quiet s (handleTerminalEval c o n s) := by
    unfold handleTerminalEval
    simp only [key, Bool.false_eq_true, if_false]
    obtain ⟨h1, h2, h3, h4, h5⟩ := maybeReset_counters (c := c) 0 n { s with steps := set s.steps n 0 }
    refine ⟨h1, h2, h3, h4, ?_, ?_⟩ <;> rcases h5 with h | h <;> rw [h] <;> simp [Event.isAct, Event.isEnd]
  unfold handle
  rw [if_pos he]
  split
  · exact a
  · split
    · exact a
    · exact b

theorem visit_eval (h1 : c.envs ≠ 1) {n : Nat} (he : c.isEval n = true) (i : Nat) (s : State) : Quiet s (visit c o i s n) := by
  unfold visit
  split
  · exact ⟨rfl, rfl, rfl, rfl, rfl, rfl⟩
  · split
    · exact handle_eval h1 he s
    · split
      · have h := handle_eval (o := o) h1 he { s with terms := set s.terms n (reply o n s) }
        exact ⟨h.1, h.2, h.3, h.4, h.5, h.6⟩
      · exact ⟨rfl, rfl, rfl, rfl, rfl, rfl⟩

/-! ## Resetting all environments -/

/-- The loop of `syncReset`. -/
def resetAll (l : List Nat) (s : State) : State := l.foldl (fun s n => startReset n { s with prev := set s.prev n (-1) }) s

theorem resetAll_spec (l : List Nat) (s : State) :
    (∀ n, (resetAll l s).prev n = if n ∈ l then -1 else s.prev n) ∧ (∀ n, (resetAll l s).pending n = if n ∈ l then true else s.pending n) ∧
    (resetAll l s).steps = s.steps ∧ (resetAll l s).terms = s.terms ∧ Quiet s (resetAll l s) := by
  induction l generalizing s with
  | nil => exact ⟨fun n => by simp [resetAll], fun n => by simp [resetAll], rfl, rfl, rfl, rfl, rfl, rfl, rfl, rfl⟩
  | cons m l ih =>
    obtain ⟨h1, h2, h3, h4, h5⟩ := ih (startReset m { s with prev := set s.prev m (-1) })
    change (∀ n, (resetAll l _).prev n = _) ∧ (∀ n, (resetAll l _).pending n = _) ∧ (resetAll l _).steps = _ ∧ (resetAll l _).terms = _ ∧ Quiet s (resetAll l _)
    refine ⟨fun n => ?_, fun n => ?_, h3, h4, h5.1, h5.2, h5.3, h5.4, ?_, ?_⟩
    · rw [h1]
      by_cases hm : n = m
      · subst hm; simp [startReset, set_same]
      · simp [startReset, set_other _ _ hm, hm]
    · rw [h2]
      by_cases hm : n = m
      · subst hm; simp [startReset, set_same]
      · simp [startReset, set_other _ _ hm, hm]
    · rw [h5.5]; simp [startReset, Event.isAct]
    · rw [h5.6]; simp [startReset, Event.isEnd]

theorem resetAll_phase (l : List Nat) (hl : l.Nodup) (s : State) (n : Nat) (hn : n ∈ l → phase n s.log = .ended ∨ phase n s.log = .fresh) :
    phase n (resetAll l s).log = if n ∈ l then .resetting else phase n s.log := by
  induction l generalizing s with
  | nil => simp [resetAll]
  | cons m l ih =>
    rw [List.nodup_cons] at hl
    change phase n (resetAll l _).log = _
    by_cases hm : n = m
    · subst hm
      rw [ih hl.2 _ (fun h => absurd h hl.1), if_neg hl.1, if_pos (by simp)]
      change phase n (.reset n :: s.log) = _
      rw [phase_reset]
      rcases hn (by simp) with h | h <;> rw [h] <;> rfl
    · have hp : phase n (startReset m { s with prev := set s.prev m (-1) }).log = phase n s.log :=
        phase_other (e := .reset m) (fun h => hm h.symm) _
      rw [ih hl.2 _ (fun h => by rw [hp]; exact hn (by simp [h])), hp]
      simp [hm]

theorem toReset_nodup (s : State) : (toReset c s).Nodup ∧ ∀ n ∈ toReset c s, n < c.envs ∨ c.envs = 0 := by
  have hlt : ∀ k, k ≤ c.train → (List.range k ++ (if c.evaluation && !reached s.episodes c.numEpisodes then [c.envs - 1] else [])).Nodup ∧
      ∀ n ∈ (List.range k ++ (if c.evaluation && !reached s.episodes c.numEpisodes then [c.envs - 1] else [])), n < c.envs ∨ c.envs = 0 := by
    intro k hk
    have ht := train_le (c := c)
    split
    case isTrue h =>
      have he : c.evaluation = true := by simp at h; exact h.1
      have : c.train = c.envs - 1 := by simp [Config.train, he]
      constructor
      · rw [List.nodup_append]
        refine ⟨List.nodup_range, by simp, fun a ha b hb => ?_⟩
        have := List.mem_range.mp ha
        simp at hb
        omega
      · intro n hn
        rw [List.mem_append, List.mem_range, List.mem_singleton] at hn
        omega
    case isFalse h =>
      rw [List.append_nil]
      refine ⟨List.nodup_range, fun n hn => ?_⟩
      have := List.mem_range.mp hn
      omega
  unfold toReset
  dsimp only
  split
  · exact hlt _ (Nat.le_refl _)
  · exact hlt _ (Nat.min_le_left ..)

theorem mem_toReset (s : State) (n : Nat) (hn : n < c.train) :
    n ∈ toReset c s ↔ ∀ N, c.numEpisodes = some N → n < N - s.episodes := by
  have hne : n ∉ (if c.evaluation && !reached s.episodes c.numEpisodes then [c.envs - 1] else []) := by
    split
    case isTrue h =>
      have he : c.evaluation = true := by simp at h; exact h.1
      have : c.train = c.envs - 1 := by simp [Config.train, he]
      simp
      omega
    case isFalse => simp
  unfold toReset
  dsimp only
  split
  case h_1 h => simp [hn, h]
  case h_2 N h =>
    rw [List.mem_append, List.mem_range]
    constructor
    · intro hm M hM
      rw [h] at hM
      have : N = M := by simpa using hM
      subst this
      rcases hm with hm | hm
      · omega
      · exact absurd hm hne
    · intro hm
      have := hm N h
      left; omega

/-! ## Between visits -/

/-- The first `k` environments have been visited in this iteration. -/
def Mid (c : Config) (k : Nat) (s : State) : Prop :=
  ∀ n, n < c.train → EnvOk (if n < k then s.terms n else s.prev n) (s.pending n) (phase n s.log)

theorem Mid.visit (hb : c.batch = false) {i k : Nat} {s : State} (h : Mid c k s) : Mid c (k + 1) (visit c o i s k) := by
  intro n hn
  by_cases hk : n = k
  · subst hk
    have hok := h n hn
    rw [if_neg (by omega)] at hok
    rw [if_pos (by omega)]
    exact (visit_cases hb (isEval_of_lt hn) i s hok).ok hok
  · have hs := visit_same (c := c) (o := o) hk i s
    have := h n hn
    rw [hs.prev, hs.terms, hs.pending, hs.phase]
    by_cases hlt : n < k
    · rw [if_pos hlt] at this; rw [if_pos (by omega)]; exact this
    · rw [if_neg hlt] at this; rw [if_neg (by omega)]; exact this

/-- The environments are as the runner believes. -/
def Good (c : Config) (s : State) : Prop := ∀ n, n < c.train → EnvOk (s.prev n) (s.pending n) (phase n s.log)

theorem syncReset_eq (s : State) : syncReset c s = if c.syncEpisodes = true ∧ ∀ n < c.envs, 0 < s.terms n then resetAll (toReset c s) s else s := rfl

/-- To prove something of all states of the loop, it suffices to look at visits, the end of an iteration and a joint reset. -/
theorem iteration_ind (hb : c.batch = false) (J : Nat → State → Prop) (J' : State → Prop) (i : Nat) (s : State) (hg : Good c s) (h0 : J 0 s)
    (hvisit : ∀ k s, k < c.envs → Mid c k s → J k s → J (k + 1) (visit c o i s k))
    (hprev : ∀ s, J c.envs s → J' { s with prev := s.terms })
    (hsync : ∀ s, c.syncEpisodes = true → (∀ n, n < c.train → phase n s.log = .ended) → Good c s → (∀ n < c.envs, 0 < s.terms n) → s.prev = s.terms →
      J' s → J' (resetAll (toReset c s) s)) :
    Good c (iteration c o i s) ∧ J' (iteration c o i s) := by
  have h := range_fold_ind (fun k s => Mid c k s ∧ J k s) (visit c o i) c.envs s
    ⟨fun n hn => by rw [if_neg (by omega)]; exact hg n hn, h0⟩
    (fun k s hk h => ⟨h.1.visit hb, hvisit k s hk h.1 h.2⟩)
  unfold iteration
  have hj : jointly c o s = s := by unfold jointly; rw [if_neg (by rw [hb]; decide)]
  rw [hj]
  dsimp only
  generalize (List.range c.envs).foldl (visit c o i) s = s1 at h
  have hg1 : Good c { s1 with prev := s1.terms } := fun n hn => by
    have := h.1 n hn
    rwa [if_pos (by have := train_le (c := c); omega)] at this
  have hj1 := hprev s1 h.2
  rw [syncReset_eq]
  split
  case isFalse => exact ⟨hg1, hj1⟩
  case isTrue hs =>
    generalize hs2 : ({ s1 with prev := s1.terms } : State) = s2 at *
    have hpt : s2.prev = s2.terms := by rw [← hs2]
    have hended : ∀ n, n < c.train → phase n s2.log = .ended := fun n hn => by
      have hpos := hs.2 n (by have := train_le (c := c); omega)
      rcases hg1 n hn with h | h | h
      · exact h.2
      · rw [hpt] at h; omega
      · rw [hpt] at h; omega
    refine ⟨fun n hn => ?_, hsync s2 hs.1 hended hg1 hs.2 hpt hj1⟩
    obtain ⟨h1, h2, -, -, -⟩ := resetAll_spec (toReset c s2) s2
    rw [h1, h2, resetAll_phase _ (toReset_nodup s2).1 s2 n fun _ => .inl (hended n hn)]
    split
    · exact .inr (.inl ⟨by decide, rfl, rfl⟩)
    · exact hg1 n hn

/-! ## From the start -/

theorem init_spec : Good c (init c) ∧ (∀ n, n < c.train → phase n (init c).log = .resetting) ∧ (∀ n, (init c).prev n = -1) ∧
    (init c).steps = (fun _ => 0) ∧ (init c).timesteps = 0 ∧ (init c).episodes = 0 ∧ (init c).updates = 0 ∧ (init c).terminate = 0 ∧
    (init c).log.countP Event.isAct = 0 ∧ (init c).log.countP Event.isEnd = 0 := by
  have h := range_fold_ind (fun k (s : State) => (∀ n, n < k → phase n s.log = .resetting ∧ s.pending n = true) ∧ (∀ n, k ≤ n → phase n s.log = .fresh) ∧
      s.prev = (fun _ => -1) ∧ s.steps = (fun _ => 0) ∧ s.timesteps = 0 ∧ s.episodes = 0 ∧ s.updates = 0 ∧ s.terminate = 0 ∧
      s.log.countP Event.isAct = 0 ∧ s.log.countP Event.isEnd = 0)
    (fun s n => startReset n s) c.envs ⟨fun _ => -1, fun _ => -1, fun _ => false, fun _ => 0, 0, 0, 0, 0, []⟩
    ⟨fun n hn => by omega, fun n _ => rfl, rfl, rfl, rfl, rfl, rfl, rfl, rfl, rfl⟩
    (fun k s _ ⟨h1, h2, h3, h4, h5, h6, h7, h8, h9, h10⟩ => by
      refine ⟨fun n hn => ?_, fun n hn => ?_, h3, h4, h5, h6, h7, h8, ?_, ?_⟩
      · by_cases hk : n = k
        · subst hk
          exact ⟨by rw [startReset]; dsimp only; rw [phase_reset, h2 n (by omega)]; rfl, set_same ..⟩
        · have := h1 n (by omega)
          exact ⟨by rw [startReset]; dsimp only; rw [phase_other (e := .reset k) (fun h => hk h.symm)]; exact this.1,
            (set_other _ _ hk).trans this.2⟩
      · rw [startReset]; dsimp only; rw [phase_other (e := .reset k) (fun h : k = n => by omega)]; exact h2 n (by omega)
      · simp [startReset, Event.isAct, h9]
      · simp [startReset, Event.isEnd, h10])
  change _ ∧ _
  obtain ⟨h1, -, h3, h4, h5, h6, h7, h8, h9, h10⟩ := h
  have ht := train_le (c := c)
  refine ⟨fun n hn => ?_, fun n hn => (h1 n (by omega)).1, fun n => ?_, h4, h5, h6, h7, h8, h9, h10⟩
  · right; left
    refine ⟨?_, (h1 n (by omega)).2, (h1 n (by omega)).1⟩
    unfold init; rw [h3]; show (-1 : Int) ≤ 0; decide
  · unfold init; rw [h3]

/-- Invariants of the whole run. -/
theorem run_ind (hb : c.batch = false) (J : Nat → State → Prop) (h0 : J 0 (init c))
    (hskip : ∀ k s, Good c s → ¬ continues c s → J k s → J (k + 1) s)
    (hstep : ∀ k s, Good c s → continues c s → J k s → J (k + 1) (iteration c o k s)) (k : Nat) : Good c (run c o k) ∧ J k (run c o k) := by
  induction k with
  | zero => exact ⟨init_spec.1, h0⟩
  | succ k ih =>
    unfold run
    split
    case isTrue hc =>
      exact ⟨(iteration_ind hb (fun _ _ => True) (fun _ => True) k _ ih.1 trivial (fun _ _ _ _ _ => trivial) (fun _ _ => trivial) (fun _ _ _ _ _ _ _ => trivial)).1,
        hstep k _ ih.1 hc ih.2⟩
    case isFalse hc => exact ⟨ih.1, hskip k _ ih.1 hc ih.2⟩

theorem Good.not_bad {s : State} (h : Good c s) {n : Nat} (hn : n < c.train) : phase n s.log ≠ .bad := by
  rcases h n hn with h | h | h
  · rw [h.2]; decide
  · rw [h.2.2]; decide
  · rw [h.2.2]; decide

end Verif.Runner
