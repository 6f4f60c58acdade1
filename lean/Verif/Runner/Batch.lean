import Verif.Runner.Ends

/-! # Batched agent calls -/

namespace Verif.Runner

variable {c : Config} {o : Oracle}

/-- Nothing but the number of episodes (or an episode callback) ends the run. -/
structure Soft (c : Config) (o : Oracle) : Prop where
  timesteps : c.numTimesteps = none
  updates : c.numUpdates = none
  callback : c.timestepFreq = none ∨ ∀ l, o.callback l = true

/-! ## Joint calls -/

theorem phase_batch (f : Nat → Event) (hf : ∀ m, (f m).env = m) (ns : List Nat) (hns : ns.Nodup) (log : List Event) (n : Nat) :
    phase n ((ns.map f).reverse ++ log) = if n ∈ ns then (phase n log).next (f n) else phase n log := by
  induction ns generalizing log with
  | nil => simp
  | cons m ns ih =>
    rw [List.nodup_cons] at hns
    rw [List.map_cons, List.reverse_cons, List.append_assoc, ih hns.2]
    by_cases hm : n = m
    · subst hm
      rw [if_neg hns.1, if_pos (by simp)]
      exact if_pos (hf n)
    · have : phase n ([f m] ++ log) = phase n log := phase_other (by rw [hf]; exact fun h => hm h.symm) log
      rw [this]
      simp [hm]

theorem batch_count (p : Event → Bool) (f : Nat → Event) (b : Bool) (ns : List Nat) (hf : ∀ n ∈ ns, p (f n) = b) (log : List Event) :
    ((ns.map f).reverse ++ log).countP p = log.countP p + (if b then ns.length else 0) := by
  rw [List.countP_append, List.countP_reverse]
  have : (ns.map f).countP p = if b then ns.length else 0 := by
    induction ns with
    | nil => simp
    | cons m ns ih =>
      rw [List.map_cons, List.countP_cons, ih fun n hn => hf n (by simp [hn]), hf m (by simp)]
      cases b <;> simp
  omega

/-- The state after the joint calls. -/
structure Joint (c : Config) (o : Oracle) (s s' : State) : Prop where
  prev : s'.prev = s.prev
  terms : ∀ n, s'.terms n = if s.prev n ≤ 0 then reply o n s else s.prev n
  pending : s'.pending = s.pending
  timesteps : s'.timesteps = s.timesteps
  episodes : s'.episodes = s.episodes
  terminate : s'.terminate = s.terminate
  phase : ∀ n, n < c.train → phase n s'.log =
    (let p := if s.prev n ≤ 0 ∧ 0 ≤ s'.terms n then (Verif.Runner.phase n s.log).next (.observe n (s'.terms n)) else Verif.Runner.phase n s.log
     if s'.terms n ≤ 0 then p.next (.act n) else p)
  acts : s'.log.countP Event.isAct = s.log.countP Event.isAct + (List.range c.train).countP fun n => s'.terms n ≤ 0
  ends : s'.log.countP Event.isEnd = s.log.countP Event.isEnd + (List.range c.train).countP fun n => s.prev n ≤ 0 ∧ 0 < s'.terms n

theorem range_filter_nodup (N : Nat) (p : Nat → Bool) : ((List.range N).filter p).Nodup := List.nodup_range.filter p

theorem ends_count (N : Nat) (p : Nat → Bool) (t : Nat → Int) (log : List Event) :
    ((((List.range N).filter p).map fun n => Event.observe n (t n)).reverse ++ log).countP Event.isEnd =
      log.countP Event.isEnd + (List.range N).countP fun n => p n && t n ≠ 0 := by
  rw [List.countP_append, List.countP_reverse, List.countP_map, List.countP_filter, Nat.add_comm]
  congr 1
  apply List.countP_congr
  intro n _
  simp [Event.isEnd, and_comm]

theorem observeJoint_spec (s : State) :
    let s' := observeJoint c o s
    s'.prev = s.prev ∧ s'.terms = s.terms ∧ s'.pending = s.pending ∧ s'.timesteps = s.timesteps ∧ s'.episodes = s.episodes ∧
    s'.terminate = s.terminate ∧
    s'.log = (((List.range c.train).filter fun n => s.prev n ≤ 0 ∧ 0 ≤ s.terms n).map fun n => Event.observe n (s.terms n)).reverse ++ s.log := by
  unfold observeJoint
  dsimp only
  split
  case isTrue h => rw [h]; exact ⟨rfl, rfl, rfl, rfl, rfl, rfl, rfl⟩
  case isFalse h => exact ⟨rfl, rfl, rfl, rfl, rfl, rfl, rfl⟩

theorem actJoint_spec (s : State) :
    let s' := actJoint c s
    s'.prev = s.prev ∧ s'.terms = s.terms ∧ s'.pending = s.pending ∧ s'.timesteps = s.timesteps ∧ s'.episodes = s.episodes ∧
    s'.terminate = s.terminate ∧
    (∀ n, n < c.train → phase n s'.log = phase n ((((List.range c.train).filter fun n => s.terms n ≤ 0).map Event.act).reverse ++ s.log)) ∧
    (∀ p : Event → Bool, (∀ n, p (.evalAct n) = false) →
      s'.log.countP p = ((((List.range c.train).filter fun n => s.terms n ≤ 0).map Event.act).reverse ++ s.log).countP p) := by
  unfold actJoint
  dsimp only
  split
  case isFalse h => exact ⟨rfl, rfl, rfl, rfl, rfl, rfl, fun _ _ => rfl, fun _ _ => rfl⟩
  case isTrue h =>
    refine ⟨rfl, rfl, rfl, rfl, rfl, rfl, fun n hn => ?_, fun p hp => ?_⟩
    · have : c.train = c.envs - 1 := by simp [Config.train, h.1]
      exact phase_other (e := .evalAct (c.envs - 1)) (by show c.envs - 1 ≠ n; omega) _
    · rw [List.countP_cons, hp]; simp

theorem jointly_joint (hb : c.batch = true) (s : State) : Joint c o s (jointly c o s) := by
  unfold jointly
  rw [if_pos hb]
  obtain ⟨a1, a2, a3, a4, a5, a6, a7⟩ := observeJoint_spec (c := c) (o := o) (receiveAll o s)
  obtain ⟨b1, b2, b3, b4, b5, b6, b7, b8⟩ := actJoint_spec (c := c) (observeJoint c o (receiveAll o s))
  generalize actJoint c (observeJoint c o (receiveAll o s)) = s' at *
  generalize observeJoint c o (receiveAll o s) = s1 at *
  have hterms : s'.terms = (receiveAll o s).terms := b2.trans a2
  refine ⟨b1.trans a1, fun n => by rw [hterms]; rfl, b3.trans a3, b4.trans a4, b5.trans a5, b6.trans a6, fun n hn => ?_, ?_, ?_⟩
  · have hl : phase n s1.log = if s.prev n ≤ 0 ∧ 0 ≤ s'.terms n then (phase n s.log).next (.observe n (s'.terms n)) else phase n s.log := by
      rw [a7, phase_batch (fun n => Event.observe n ((receiveAll o s).terms n)) (fun m => rfl) _ (range_filter_nodup ..)]
      simp only [List.mem_filter, List.mem_range, hn, true_and, decide_eq_true_eq, hterms]
      rfl
    rw [b7 n hn, phase_batch Event.act (fun m => rfl) _ (range_filter_nodup ..), hl]
    simp only [List.mem_filter, List.mem_range, hn, true_and, decide_eq_true_eq, hterms, a2]
  · rw [b8 _ (fun _ => rfl), batch_count Event.isAct Event.act true _ (fun _ _ => rfl), a7,
      batch_count Event.isAct (fun n => Event.observe n ((receiveAll o s).terms n)) false _ (fun _ _ => rfl)]
    simp only [if_true, Bool.false_eq_true, if_false, ← List.countP_eq_length_filter, b2]
    rfl
  · rw [b8 _ (fun _ => rfl), batch_count Event.isEnd Event.act false _ (fun _ _ => rfl), a7, ends_count]
    simp only [Bool.false_eq_true, if_false, Nat.add_zero]
    congr 1
    apply List.countP_congr
    intro n _
    rw [hterms]
    have : (receiveAll o s).prev = s.prev := rfl
    simp only [this, Bool.and_eq_true, decide_eq_true_eq]
    omega

/-! ## Visits -/

/-- Visiting in batch mode, while the flag is not 2. -/
inductive BVisited (c : Config) (o : Oracle) (n : Nat) (s s' : State) : Prop where
  | idle (reason : 0 < s.prev n) (terms : s'.terms n = s.prev n) (log : s'.log = s.log) (pending : s'.pending n = s.pending n)
      (timesteps : s'.timesteps = s.timesteps) (episodes : s'.episodes = s.episodes) (terminate : s'.terminate = s.terminate)
  | act (going : s.prev n ≤ 0) (code : s.terms n ≤ 0) (terms : s'.terms n = s.terms n) (log : s'.log = .execute n :: s.log)
      (pending : s'.pending n = false) (timesteps : s'.timesteps = s.timesteps + 1) (episodes : s'.episodes = s.episodes)
      (terminate : s'.terminate = s.terminate)
  | finish (going : s.prev n ≤ 0) (code : 0 < s.terms n) (terms : s'.terms n = s.terms n) (log : s'.log = s.log)
      (pending : s'.pending n = s.pending n) (timesteps : s'.timesteps = s.timesteps) (episodes : s'.episodes = s.episodes + 1)
      (terminate : s'.terminate ≠ 0 ∨ c.syncEpisodes = true) (two : s'.terminate ≠ 2)
      (still : s'.terminate = 0 → s.terminate = 0 ∧ reached s'.episodes c.numEpisodes = false)
      (why : s'.terminate ≠ 0 → s.terminate ≠ 0 ∨ reached s'.episodes c.numEpisodes = true ∨ ∃ l, o.callback l = false)
  | restart (going : s.prev n ≤ 0) (code : 0 < s.terms n) (terms : s'.terms n = -1) (log : s'.log = .reset n :: s.log)
      (pending : s'.pending n = true) (timesteps : s'.timesteps = s.timesteps) (episodes : s'.episodes = s.episodes + 1)
      (terminate : s'.terminate = 0) (was : s.terminate = 0) (sync : c.syncEpisodes = false)
      (limit : reached s'.episodes c.numEpisodes = false)

theorem soft_terminate (hs : Soft c o) (n : Nat) (s : State) : (countTimestep c o n s).terminate = s.terminate := by
  unfold countTimestep
  dsimp only
  rw [if_neg]
  rw [hs.timesteps]
  rcases hs.callback with h | h
  · rw [h]; simp [hits, reached]
  · simp [h, reached]

theorem batch_act (hb : c.batch = true) (hs : Soft c o) (n : Nat) (s : State) (hp : s.prev n ≤ 0) (ht : s.terms n ≤ 0) :
    BVisited c o n s (handleAct c o n s) := by
  unfold handleAct
  simp only [hb, if_true]
  obtain ⟨-, h2, h3, h4, h5, h6, h7, h8⟩ := countTimestep_frame (c := c) (o := o) n (execute n s)
  refine .act hp ht (by rw [h2]; rfl) h5 ?_ h8 h6 (soft_terminate hs n _)
  rw [h3]; exact set_same ..

theorem batch_observe (hb : c.batch = true) (hs : Soft c o) (n : Nat) (s : State) (h2 : s.terminate ≠ 2) : handleObserve c o n s = s := by
  have hc : cutOff n s = s := by unfold cutOff; exact if_neg (by simp [h2])
  unfold handleObserve tell
  rw [hc, if_pos hb]
  dsimp only
  rw [if_neg (by rw [hs.updates]; simp [reached])]

theorem batch_visit (hb : c.batch = true) (hs : Soft c o) {n : Nat} (he : c.isEval n = false) (i : Nat) (s : State) (h2 : s.terminate ≠ 2)
    (hlow : -1 ≤ s.terms n) : BVisited c o n s (visit c o i s n) := by
  unfold visit
  by_cases hp : s.prev n > 0
  · rw [if_pos hp]
    exact .idle hp (set_same ..) rfl rfl rfl rfl rfl
  rw [if_neg hp, if_pos hb]
  have hp : s.prev n ≤ 0 := by omega
  by_cases ht : s.terms n = -1
  · rw [handle_acts he s ht]
    exact batch_act hb hs n s hp (by omega)
  rw [handle_observes he s ht, batch_observe hb hs n s h2]
  split
  case isTrue h => exact batch_act hb hs n s hp (by omega)
  case isFalse h0 =>
    obtain ⟨t1, t2, t3, t4, t5, t6⟩ := terminal_spec (c := c) (o := o) n s
    have e := countEpisode_terminate (c := c) (o := o) s
    rw [← t5, ← t2] at e
    generalize handleTerminal c o n s = s' at *
    rcases t6 with ⟨u1, u2, u3, u4, u5⟩ | ⟨u1, u3, u4, u5⟩
    · have hs1 : s.terminate = 0 ∧ reached s'.episodes c.numEpisodes = false := by
        rcases e with e | e
        · exact ⟨by rw [← e.1]; exact u1, e.2 (by rw [← e.1]; exact u1)⟩
        · omega
      exact .restart hp (by omega) u4 u3 u5 t1 t2 u1 hs1.1 u2 hs1.2
    · refine .finish hp (by omega) u4 u3 u5 t1 t2 u1 ?_ ?_ ?_
      · rcases e with e | e <;> omega
      · intro hz
        rcases e with e | e
        · have : s.terminate = 0 := by rw [← e.1]; exact hz
          exact ⟨this, e.2 this⟩
        · omega
      · intro hne
        rcases e with e | e
        · left; rw [← e.1]; exact hne
        · exact .inr e.2.2

/-! ## Invariant -/

/-- The code known of environment `n` when the first `k` have been visited. -/
def codeAt (k n : Nat) (s : State) : Int := if n < k then s.terms n else s.prev n

/-- Environments in the middle of an iteration with joint calls. -/
def BMid (c : Config) (k : Nat) (s : State) : Prop :=
  ∀ n, n < c.train → -1 ≤ s.terms n ∧
    if n < k then EnvOk (s.terms n) (s.pending n) (phase n s.log)
    else (0 < s.prev n ∧ s.terms n = s.prev n ∧ phase n s.log = .ended) ∨ (s.prev n ≤ 0 ∧ s.terms n ≤ 0 ∧ phase n s.log = .acted) ∨
      (s.prev n ≤ 0 ∧ 0 < s.terms n ∧ phase n s.log = .ended)

structure BCount (c : Config) (o : Oracle) (k : Nat) (s : State) : Prop where
  two : s.terminate ≠ 2
  bound : ∀ N B, c.numEpisodes = some N → c.train ≤ B → N ≤ B → 0 < N → (c.syncEpisodes = false → N + c.train ≤ B + 1) →
    s.episodes + (List.range c.train).countP (fun n => codeAt k n s ≤ 0) ≤ B ∧ (s.terminate = 0 → s.episodes < N)
  why : s.terminate ≠ 0 → reached s.episodes c.numEpisodes = true ∨ ∃ l, o.callback l = false
  ended : ∀ n, n < c.train → 0 < codeAt k n s → s.terminate ≠ 0 ∨ c.syncEpisodes = true

/-- Actions and ends already reported. -/
structure BLog (c : Config) (k : Nat) (s : State) : Prop where
  acts : s.timesteps + (List.range c.train).countP (fun n => k ≤ n ∧ s.prev n ≤ 0 ∧ s.terms n ≤ 0) = s.log.countP Event.isAct
  ends : s.episodes + (List.range c.train).countP (fun n => k ≤ n ∧ s.prev n ≤ 0 ∧ 0 < s.terms n) = s.log.countP Event.isEnd

theorem phase_exec {n : Nat} {log : List Event} (h : phase n log = .acted) : phase n (.execute n :: log) = .executing := by
  rw [phase_execute, h]; rfl

theorem phase_again {n : Nat} {log : List Event} (h : phase n log = .ended) : phase n (.reset n :: log) = .resetting := by
  rw [phase_reset, h]; rfl

theorem bmid_visit (hb : c.batch = true) (hs : Soft c o) {i k : Nat} {s : State} (h2 : s.terminate ≠ 2) (h : BMid c k s) :
    BMid c (k + 1) (visit c o i s k) := by
  intro n hn
  by_cases hk : n = k
  · subst hk
    have hm := h n hn
    rw [if_neg (by omega)] at hm
    have hv := batch_visit hb hs (isEval_of_lt hn) i s h2 hm.1
    generalize visit c o i s n = s' at hv
    rw [if_pos (by omega)]
    cases hv with
    | idle r t l p =>
      have : phase n s.log = .ended := by rcases hm.2 with e | e | e <;> first | exact e.2.2 | omega
      exact ⟨by omega, .inl ⟨by omega, by rw [l]; exact this⟩⟩
    | act g cd t l p =>
      have : phase n s.log = .acted := by rcases hm.2 with e | e | e <;> first | exact e.2.2 | omega
      exact ⟨by omega, .inr (.inr ⟨by omega, p, by rw [l]; exact phase_exec this⟩)⟩
    | finish g cd t l p =>
      have : phase n s.log = .ended := by rcases hm.2 with e | e | e <;> first | exact e.2.2 | omega
      exact ⟨by omega, .inl ⟨by omega, by rw [l]; exact this⟩⟩
    | restart g cd t l p =>
      have : phase n s.log = .ended := by rcases hm.2 with e | e | e <;> first | exact e.2.2 | omega
      exact ⟨by omega, .inr (.inl ⟨by omega, p, by rw [l]; exact phase_again this⟩)⟩
  · have hsm := visit_same (c := c) (o := o) hk i s
    have := h n hn
    rw [hsm.prev, hsm.terms, hsm.pending, hsm.phase]
    by_cases hlt : n < k
    · rw [if_pos hlt] at this; rw [if_pos (by omega)]; exact this
    · rw [if_neg hlt] at this; rw [if_neg (by omega)]; exact this

theorem codeAt_other {i k n : Nat} {s : State} (hn : n ≠ k) : codeAt (k + 1) n (visit c o i s k) = codeAt k n s := by
  have hsm := visit_same (c := c) (o := o) hn i s
  unfold codeAt
  rw [hsm.prev, hsm.terms]
  by_cases h : n < k
  · rw [if_pos h, if_pos (by omega)]
  · rw [if_neg h, if_neg (by omega)]

theorem bcount_visit (hb : c.batch = true) (hs : Soft c o) {i k : Nat} {s : State} (hk : k < c.train) (hm : BMid c k s) (h : BCount c o k s) :
    BCount c o (k + 1) (visit c o i s k) := by
  have hv := batch_visit hb hs (isEval_of_lt hk) i s h.two (hm k hk).1
  have hoth := fun n (hn : n ≠ k) => codeAt_other (c := c) (o := o) (i := i) (s := s) hn
  generalize visit c o i s k = s' at hv hoth
  have hch := countP_change (fun n => decide (codeAt (k + 1) n s' ≤ 0)) (fun n => decide (codeAt k n s ≤ 0)) c.train k hk
    (fun m hmk => by rw [hoth m hmk])
  have hle : (List.range c.train).countP (fun n => decide (codeAt (k + 1) n s' ≤ 0)) ≤ c.train := by
    have := List.countP_le_length (p := fun n => decide (codeAt (k + 1) n s' ≤ 0)) (l := List.range c.train)
    rwa [List.length_range] at this
  have hnew : codeAt (k + 1) k s' = s'.terms k := if_pos (by omega)
  have hold : codeAt k k s = s.prev k := if_neg (by omega)
  have hend : (s.terminate ≠ 0 → s'.terminate ≠ 0) → (0 < s'.terms k → s'.terminate ≠ 0 ∨ c.syncEpisodes = true) →
      ∀ n, n < c.train → 0 < codeAt (k + 1) n s' → s'.terminate ≠ 0 ∨ c.syncEpisodes = true := by
    intro hm hk' n hn hp
    by_cases hnk : n = k
    · subst hnk; rw [hnew] at hp; exact hk' hp
    · rw [hoth n hnk] at hp
      rcases h.ended n hn hp with e | e
      · exact .inl (hm e)
      · exact .inr e
  simp only [hnew, hold, decide_eq_true_eq] at hch
  cases hv with
  | idle r t l p ts e f =>
    rw [if_neg (by omega), if_neg (by omega)] at hch
    refine ⟨by rw [f]; exact h.two, fun N B h1 h2 h3 h4 h5 => ?_, by rw [f, e]; exact h.why, hend (by omega) fun _ => ?_⟩
    · have := h.bound N B h1 h2 h3 h4 h5
      rw [e, f]; exact ⟨by omega, this.2⟩
    · rw [f]; exact h.ended k hk (by rw [hold]; exact r)
  | act g cd t l p ts e f =>
    rw [if_pos (by omega), if_pos (by omega)] at hch
    refine ⟨by rw [f]; exact h.two, fun N B h1 h2 h3 h4 h5 => ?_, by rw [f, e]; exact h.why, hend (by omega) fun _ => by omega⟩
    have := h.bound N B h1 h2 h3 h4 h5
    rw [e, f]; exact ⟨by omega, this.2⟩
  | finish g cd t l p ts e f two st w =>
    rw [if_pos (by omega), if_neg (by omega)] at hch
    refine ⟨two, fun N B h1 h2 h3 h4 h5 => ?_, fun hne => ?_, hend (fun h0 h => h0 (st h).1) fun _ => f⟩
    · have := h.bound N B h1 h2 h3 h4 h5
      refine ⟨by omega, fun hz => ?_⟩
      have := (st hz).2
      simpa [h1, reached] using this
    · rcases w hne with h' | h' | h'
      · rcases h.why h' with h' | h'
        · exact .inl (reached_mono (by omega) h')
        · exact .inr h'
      · exact .inl h'
      · exact .inr h'
  | restart g cd t l p ts e f was sy lim =>
    refine ⟨by omega, fun N B h1 h2 h3 h4 h5 => ?_, fun hne => absurd f hne, hend (by omega) fun _ => by omega⟩
    have hlt : s'.episodes < N := by simpa [h1, reached] using lim
    have := h5 sy
    exact ⟨by omega, fun _ => hlt⟩

/-- Environments from `k` on, split off the first. -/
theorem countP_from (q : Nat → Bool) (N k : Nat) (hk : k < N) :
    (List.range N).countP (fun n => k ≤ n ∧ q n) = (List.range N).countP (fun n => k + 1 ≤ n ∧ q n) + (if q k then 1 else 0) := by
  have := countP_change (fun n => decide (k ≤ n ∧ q n)) (fun n => decide (k + 1 ≤ n ∧ q n)) N k hk (fun m hm => by
    have : (k ≤ m) = (k + 1 ≤ m) := by apply propext; omega
    simp only [this])
  simp only [decide_eq_true_eq] at this
  rw [if_neg (by omega)] at this
  simpa using this

theorem blog_visit (hb : c.batch = true) (hs : Soft c o) {i k : Nat} {s : State} (hk : k < c.train) (h2 : s.terminate ≠ 2)
    (hm : BMid c k s) (h : BLog c k s) : BLog c (k + 1) (visit c o i s k) := by
  have hv := batch_visit hb hs (isEval_of_lt hk) i s h2 (hm k hk).1
  have hsm := fun n (hn : n ≠ k) => visit_same (c := c) (o := o) hn i s
  have hprev := visit_prev (c := c) (o := o) k i s
  generalize visit c o i s k = s' at hv hsm hprev
  have ha := countP_from (fun n => decide (s.prev n ≤ 0 ∧ s.terms n ≤ 0)) c.train k hk
  have he := countP_from (fun n => decide (s.prev n ≤ 0 ∧ 0 < s.terms n)) c.train k hk
  have ha' : (List.range c.train).countP (fun n => decide (k + 1 ≤ n ∧ s'.prev n ≤ 0 ∧ s'.terms n ≤ 0)) =
      (List.range c.train).countP (fun n => decide (k + 1 ≤ n ∧ s.prev n ≤ 0 ∧ s.terms n ≤ 0)) := by
    apply List.countP_congr
    intro n _
    rw [hprev]
    by_cases hn : n = k
    · simp only [decide_eq_true_eq]; omega
    · rw [(hsm n hn).terms]
  have he' : (List.range c.train).countP (fun n => decide (k + 1 ≤ n ∧ s'.prev n ≤ 0 ∧ 0 < s'.terms n)) =
      (List.range c.train).countP (fun n => decide (k + 1 ≤ n ∧ s.prev n ≤ 0 ∧ 0 < s.terms n)) := by
    apply List.countP_congr
    intro n _
    rw [hprev]
    by_cases hn : n = k
    · simp only [decide_eq_true_eq]; omega
    · rw [(hsm n hn).terms]
  simp only [decide_eq_true_eq] at ha he
  obtain ⟨h1, h2⟩ := h
  refine ⟨?_, ?_⟩
  · rw [ha']
    cases hv with
    | idle r t l p ts e f => rw [if_neg (by omega)] at ha; rw [l]; omega
    | act g cd t l p ts e f => rw [if_pos (by omega)] at ha; rw [l, List.countP_cons_of_neg (by simp [Event.isAct])]; omega
    | finish g cd t l p ts e f => rw [if_neg (by omega)] at ha; rw [l]; omega
    | restart g cd t l p ts e f => rw [if_neg (by omega)] at ha; rw [l, List.countP_cons_of_neg (by simp [Event.isAct])]; omega
  · rw [he']
    cases hv with
    | idle r t l p ts e f => rw [if_neg (by omega)] at he; rw [l]; omega
    | act g cd t l p ts e f => rw [if_neg (by omega)] at he; rw [l, List.countP_cons_of_neg (by simp [Event.isEnd])]; omega
    | finish g cd t l p ts e f => rw [if_pos (by omega)] at he; rw [l]; omega
    | restart g cd t l p ts e f => rw [if_pos (by omega)] at he; rw [l, List.countP_cons_of_neg (by simp [Event.isEnd])]; omega

/-! ## Iterations -/

theorem reply_low (n : Nat) (s : State) : -1 ≤ reply o n s := by unfold reply; split <;> omega

theorem joint_mid {s s' : State} (hj : Joint c o s s') (hg : Good c s) : BMid c 0 s' := by
  intro n hn
  have ht := hj.terms n
  have hp := hj.phase n hn
  rw [if_neg (by omega), hj.prev]
  rcases hg n hn with ⟨h1, h2⟩ | ⟨h1, h2, h3⟩ | ⟨h1, h2, h3⟩
  · rw [if_neg (by omega)] at ht
    refine ⟨by omega, .inl ⟨h1, ht, ?_⟩⟩
    rw [hp]
    dsimp only
    rw [if_neg (by omega), if_neg (by omega), h2]
  · rw [if_pos h1] at ht
    have hr : reply o n s = -1 := by simp [reply, h2]
    refine ⟨by omega, .inr (.inl ⟨h1, by omega, ?_⟩)⟩
    rw [hp]
    dsimp only
    rw [if_pos (by omega), if_neg (by omega), h3]
    rfl
  · rw [if_pos h1] at ht
    have hr : reply o n s = (o.code s.log n (s.steps n) : Int) := by simp [reply, h2]
    rw [hr] at ht
    by_cases hz : s'.terms n = 0
    · refine ⟨by omega, .inr (.inl ⟨h1, by omega, ?_⟩)⟩
      rw [hp]
      dsimp only
      rw [if_pos (by omega), if_pos (by omega), h3, hz]
      rfl
    · refine ⟨by omega, .inr (.inr ⟨h1, by omega, ?_⟩)⟩
      rw [hp]
      dsimp only
      rw [if_neg (by omega), if_pos (by omega), h3]
      exact if_neg hz

theorem joint_log {s s' : State} (hj : Joint c o s s') (h1 : s.timesteps = s.log.countP Event.isAct) (h2 : s.episodes = s.log.countP Event.isEnd) :
    BLog c 0 s' := by
  constructor
  · rw [hj.timesteps, hj.acts, h1]
    congr 1
    apply List.countP_congr
    intro n _
    have := hj.terms n
    rw [hj.prev]
    simp only [decide_eq_true_eq]
    split at this <;> omega
  · rw [hj.episodes, hj.ends, h2]
    congr 1
    apply List.countP_congr
    intro n _
    rw [hj.prev]
    simp only [decide_eq_true_eq]
    omega

structure BAll (c : Config) (o : Oracle) (k : Nat) (s : State) : Prop where
  mid : BMid c k s
  count : BCount c o k s
  log : BLog c k s

theorem ball_quiet {i k : Nat} {s : State} (hk : c.train ≤ k) (hq : Quiet s (visit c o i s k)) (h : BAll c o k s) : BAll c o (k + 1) (visit c o i s k) := by
  have hsm := fun n (hn : n < c.train) => visit_same (c := c) (o := o) (m := n) (n := k) (by omega) i s
  have hcode := fun n (hn : n < c.train) => codeAt_other (c := c) (o := o) (i := i) (s := s) (k := k) (n := n) (by omega)
  generalize visit c o i s k = s' at hq hsm hcode
  refine ⟨fun n hn => ?_, ⟨?_, fun N B h1 h2 h3 h4 h5 => ?_, ?_, fun n hn hp => ?_⟩, ⟨?_, ?_⟩⟩
  · have := h.mid n hn
    rw [if_pos (by omega)] at this ⊢
    rw [(hsm n hn).terms, (hsm n hn).pending, (hsm n hn).phase]; exact this
  · rw [hq.terminate]; exact h.count.two
  · have := h.count.bound N B h1 h2 h3 h4 h5
    rw [hq.episodes, hq.terminate]
    rw [List.countP_congr (q := fun n => decide (codeAt k n s ≤ 0)) (fun n hn => by rw [hcode n (List.mem_range.mp hn)])]
    exact this
  · rw [hq.terminate, hq.episodes]; exact h.count.why
  · rw [hcode n hn] at hp; rw [hq.terminate]; exact h.count.ended n hn hp
  · rw [hq.timesteps, hq.acts, ← h.log.acts]
    congr 1
    apply List.countP_congr
    intro n hn
    have := List.mem_range.mp hn
    simp only [decide_eq_true_eq]
    omega
  · rw [hq.episodes, hq.ends, ← h.log.ends]
    congr 1
    apply List.countP_congr
    intro n hn
    have := List.mem_range.mp hn
    simp only [decide_eq_true_eq]
    omega

/-- Between iterations. -/
structure BBetween (c : Config) (o : Oracle) (s : State) : Prop where
  good : Good c s
  count : BCount c o 0 s
  acts : s.timesteps = s.log.countP Event.isAct
  ends : s.episodes = s.log.countP Event.isEnd

theorem batch_iteration (hb : c.batch = true) (ht : 0 < c.train) (hs : Soft c o) (i : Nat) (s : State) (h : BBetween c o s) :
    BBetween c o (iteration c o i s) := by
  have hj := jointly_joint (o := o) hb s
  have h0 : BAll c o 0 (jointly c o s) := by
    refine ⟨joint_mid hj h.good, ⟨by rw [hj.terminate]; exact h.count.two, fun N B h1 h2 h3 h4 h5 => ?_, ?_, fun n hn hp => ?_⟩,
      joint_log hj h.acts h.ends⟩
    · have := h.count.bound N B h1 h2 h3 h4 h5
      unfold codeAt at this ⊢
      rw [hj.episodes, hj.terminate, hj.prev]
      simpa using this
    · rw [hj.terminate, hj.episodes]; exact h.count.why
    · rw [hj.terminate]
      refine h.count.ended n hn ?_
      unfold codeAt at hp ⊢
      rw [if_neg (by omega)] at hp ⊢
      rwa [hj.prev] at hp
  have hfold := range_fold_ind (fun k s => BAll c o k s) (visit c o i) c.envs _ h0 (fun k s hk h => by
    by_cases hlt : k < c.train
    · exact ⟨bmid_visit hb hs h.count.two h.mid, bcount_visit hb hs hlt h.mid h.count, blog_visit hb hs hlt h.count.two h.mid h.log⟩
    · exact ball_quiet (by omega) (visit_quiet ht hk (by omega)) h)
  unfold iteration
  dsimp only
  generalize (List.range c.envs).foldl (visit c o i) (jointly c o s) = s1 at hfold
  have hle := train_le (c := c)
  have hb1 : BBetween c o { s1 with prev := s1.terms } := by
    refine ⟨fun n hn => ?_, ⟨hfold.count.two, fun N B h1 h2 h3 h4 h5 => ?_, hfold.count.why, fun n hn hp => ?_⟩, ?_, ?_⟩
    · have := (hfold.mid n hn).2
      rwa [if_pos (by omega)] at this
    · have := hfold.count.bound N B h1 h2 h3 h4 h5
      rw [List.countP_congr (q := fun n => decide (codeAt c.envs n s1 ≤ 0)) (fun n hn => by
        have := List.mem_range.mp hn
        unfold codeAt
        rw [if_neg (by omega), if_pos (by omega)])]
      exact this
    · refine hfold.count.ended n hn ?_
      unfold codeAt at hp ⊢
      rw [if_neg (by omega)] at hp
      rw [if_pos (by omega)]
      exact hp
    · rw [← hfold.log.acts, List.countP_eq_zero.mpr]
      · rfl
      · intro n hn; have := List.mem_range.mp hn; simp only [decide_eq_true_eq]; omega
    · rw [← hfold.log.ends, List.countP_eq_zero.mpr]
      · rfl
      · intro n hn; have := List.mem_range.mp hn; simp only [decide_eq_true_eq]; omega
  rw [syncReset_eq]
  split
  case isFalse => exact hb1
  case isTrue hsy =>
    generalize hs2 : ({ s1 with prev := s1.terms } : State) = s2 at *
    have hpt : s2.prev = s2.terms := by rw [← hs2]
    have hended : ∀ n, n < c.train → phase n s2.log = .ended := fun n hn => by
      have hpos := hsy.2 n (by omega)
      rcases hb1.good n hn with h | h | h
      · exact h.2
      · rw [hpt] at h; omega
      · rw [hpt] at h; omega
    obtain ⟨r1, r2, -, -, r5⟩ := resetAll_spec (toReset c s2) s2
    refine ⟨fun n hn => ?_, ⟨by rw [r5.terminate]; exact hb1.count.two, fun N B h1 h2 h3 h4 h5 => ?_, ?_, fun n hn _ => .inr hsy.1⟩, ?_, ?_⟩
    · rw [r1, r2, resetAll_phase _ (toReset_nodup s2).1 s2 n fun _ => .inl (hended n hn)]
      split
      · exact .inr (.inl ⟨by decide, rfl, rfl⟩)
      · exact hb1.good n hn
    · have := hb1.count.bound N B h1 h2 h3 h4 h5
      have h3 : (List.range c.train).countP (fun n => decide (codeAt 0 n (resetAll (toReset c s2) s2) ≤ 0)) = min (N - s2.episodes) c.train := by
        rw [← countP_below]
        apply List.countP_congr
        intro n hn
        have hn := List.mem_range.mp hn
        have hpos := hsy.2 n (by omega)
        unfold codeAt
        rw [if_neg (by omega), r1]
        simp only [mem_toReset s2 n hn, h1, decide_eq_true_eq]
        by_cases h : n < N - s2.episodes
        · simp [h]
        · rw [if_neg (by simpa using h), hpt]; omega
      rw [r5.episodes, r5.terminate, h3]
      exact ⟨by omega, this.2⟩
    · rw [r5.terminate, r5.episodes]; exact hb1.count.why
    · rw [r5.timesteps, r5.acts]; exact hb1.acts
    · rw [r5.episodes, r5.ends]; exact hb1.ends

theorem batch_run (hb : c.batch = true) (ht : 0 < c.train) (hs : Soft c o) (k : Nat) : BBetween c o (run c o k) := by
  induction k with
  | zero =>
    obtain ⟨h0, -, h1, -, h2, h3, -, h4, h5, h6⟩ := init_spec (c := c)
    refine ⟨h0, ⟨by rw [run, h4]; decide, fun N B h1 h2 h3' h4 h5 => ⟨?_, fun _ => by rw [run, h3]; exact h4⟩,
      fun h => absurd h4 h, fun n hn h => ?_⟩, h2.trans h5.symm, h3.trans h6.symm⟩
    · rw [run, h3]
      have := List.countP_le_length (p := fun n => decide (codeAt 0 n (init c) ≤ 0)) (l := List.range c.train)
      rw [List.length_range] at this
      omega
    · unfold codeAt at h
      rw [if_neg (by omega), run, h1] at h
      omega
  | succ k ih =>
    unfold run
    split
    · exact batch_iteration hb ht hs k _ ih
    · exact ih

end Verif.Runner
