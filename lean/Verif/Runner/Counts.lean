import Verif.Runner.Inv

/-! # Counters of the runner loop -/

namespace Verif.Runner

variable {c : Config} {o : Oracle}

theorem visit_quiet (ht : 0 < c.train) {i k : Nat} {s : State} (hk : k < c.envs) (h : c.train ≤ k) : Quiet s (visit c o i s k) := by
  obtain ⟨h1, h2⟩ := eval_of_ge h hk
  refine visit_eval ?_ ?_ i s
  · simp [Config.train, h1] at ht
    omega
  · simp [Config.isEval, h1, h2]

/-- A visit to a training environment, or to the evaluation environment beside others. -/
theorem visit_step (hb : c.batch = false) (ht : 0 < c.train) {i k : Nat} {s : State} (hk : k < c.envs) (hm : Mid c k s) :
    (k < c.train ∧ Visited c o i k s (visit c o i s k)) ∨ (c.train ≤ k ∧ Quiet s (visit c o i s k)) := by
  by_cases h : k < c.train
  · have hok := hm k h
    rw [if_neg (by omega)] at hok
    exact .inl ⟨h, visit_cases hb (isEval_of_lt h) i s hok⟩
  · exact .inr ⟨by omega, visit_quiet ht hk (by omega)⟩

theorem visit_phases (i k : Nat) (s : State) (m : Nat) (h : m ≠ k) : phase m (visit c o i s k).log = phase m s.log := (visit_same h i s).phase

/-- An invariant of counters and phases holds throughout if visits and joint resets keep it. -/
theorem counter_ind (hb : c.batch = false) (ht : 0 < c.train) (J : State → Prop) (h0 : J (init c))
    (hvisit : ∀ i k s, k < c.train → Mid c k s → Visited c o i k s (visit c o i s k) → J s → J (visit c o i s k))
    (hquiet : ∀ s s', Quiet s s' → (∀ n, n < c.train → phase n s'.log = phase n s.log) → J s → J s')
    (hsync : ∀ s s', c.syncEpisodes = true → (∀ n, n < c.train → phase n s.log = .ended) → Quiet s s' →
      (∀ n, n < c.train → phase n s'.log = if (∀ N, c.numEpisodes = some N → n < N - s.episodes) then .resetting else .ended) → J s → J s')
    (k : Nat) : Good c (run c o k) ∧ J (run c o k) := by
  refine run_ind hb (fun _ s => J s) h0 (fun _ _ _ _ h => h) (fun i s hg _ hj => ?_) k
  refine (iteration_ind hb (fun _ s => J s) J i s hg hj (fun k s hk hm h => ?_) (fun s h => ?_) (fun s hs he _ _ _ h => ?_)).2
  · rcases visit_step (o := o) hb ht hk hm with ⟨hlt, hv⟩ | ⟨hge, hq⟩
    · exact hvisit i k s hlt hm hv h
    · exact hquiet _ _ hq (fun n hn => visit_phases i k s n (by omega)) h
  · exact hquiet s _ ⟨rfl, rfl, rfl, rfl, rfl, rfl⟩ (fun _ _ => rfl) h
  · refine hsync s _ hs he (resetAll_spec _ _).2.2.2.2 (fun n hn => ?_) h
    rw [resetAll_phase _ (toReset_nodup s).1 s n (fun _ => .inl (he n hn)), he n hn]
    simp only [mem_toReset s n hn]

/-- The counters say what happened. -/
theorem counts (hb : c.batch = false) (ht : 0 < c.train) (k : Nat) :
    (run c o k).timesteps = (run c o k).log.countP Event.isAct ∧ (run c o k).episodes = (run c o k).log.countP Event.isEnd := by
  refine (counter_ind hb ht (fun s => s.timesteps = s.log.countP Event.isAct ∧ s.episodes = s.log.countP Event.isEnd) ?_ ?_ ?_ ?_ k).2
  · obtain ⟨-, -, -, -, h1, h2, -, -, h3, h4⟩ := init_spec (c := c)
    rw [h1, h2, h3, h4]
    exact ⟨rfl, rfl⟩
  · intro i k s hk hm hv h
    generalize visit c o i s k = s' at hv
    cases hv with
    | idle _ hl _ _ _ t e => rw [hl, t, e]; exact h
    | start _ l _ _ _ t e => rw [l, t, e]; simpa [List.countP_cons, Event.isAct, Event.isEnd] using h
    | goOn _ l _ _ _ _ _ t e => rw [l, t, e]; simpa [List.countP_cons, Event.isAct, Event.isEnd] using h
    | finish _ x hx l _ _ _ t e => rw [l, t, e]; have : x ≠ 0 := by omega
                                   simpa [Event.isAct, Event.isEnd, this] using h
    | restart _ x hx l _ _ _ t e => rw [l, t, e]; have : x ≠ 0 := by omega
                                    simpa [Event.isAct, Event.isEnd, this] using h
  · intro s s' hq _ h
    rw [hq.timesteps, hq.episodes, hq.acts, hq.ends]; exact h
  · intro s s' _ _ hq _ h
    rw [hq.timesteps, hq.episodes, hq.acts, hq.ends]; exact h

/-- Reasons to stop. -/
def LimitReached (c : Config) (o : Oracle) (s : State) : Prop :=
  reached s.episodes c.numEpisodes = true ∨ reached s.timesteps c.numTimesteps = true ∨ reached s.updates c.numUpdates = true ∨
    ∃ l, o.callback l = false

theorem reached_mono {a b : Nat} {l : Option Nat} (h : a ≤ b) (hr : reached a l = true) : reached b l = true := by
  cases l with
  | none => exact hr
  | some n => simp [reached] at hr ⊢; omega

theorem LimitReached.mono {s s' : State} (h : LimitReached c o s) (he : s.episodes ≤ s'.episodes) (ht : s.timesteps ≤ s'.timesteps)
    (hu : s.updates ≤ s'.updates) : LimitReached c o s' := by
  rcases h with h | h | h | h
  · exact .inl (reached_mono he h)
  · exact .inr (.inl (reached_mono ht h))
  · exact .inr (.inr (.inl (reached_mono hu h)))
  · exact .inr (.inr (.inr h))

/-- The flag is only raised for a reason, and environments are only left alone once it is raised. -/
theorem stop_reason (hb : c.batch = false) (ht : 0 < c.train) (k : Nat) :
    ((run c o k).terminate ≠ 0 → LimitReached c o (run c o k)) ∧
    (∀ n, n < c.train → phase n (run c o k).log = .ended → (run c o k).terminate ≠ 0 ∨ c.syncEpisodes = true) := by
  refine (counter_ind hb ht (fun s => (s.terminate ≠ 0 → LimitReached c o s) ∧
      ∀ n, n < c.train → phase n s.log = .ended → s.terminate ≠ 0 ∨ c.syncEpisodes = true) ?_ ?_ ?_ ?_ k).2
  · obtain ⟨-, h1, -, -, -, -, -, h2, -, -⟩ := init_spec (c := c)
    refine ⟨fun h => absurd h2 h, fun n hn h => ?_⟩
    rw [h1 n hn] at h
    cases h
  · intro i k s hk hm hv ⟨h1, h2⟩
    have hp := visit_phases (c := c) (o := o) i k s
    generalize visit c o i s k = s' at hv hp
    have key : (s.terminate ≠ 0 → s'.terminate ≠ 0) → (phase k s'.log = .ended → s'.terminate ≠ 0 ∨ c.syncEpisodes = true) →
        ∀ n, n < c.train → phase n s'.log = .ended → s'.terminate ≠ 0 ∨ c.syncEpisodes = true := by
      intro hm hk n hn he
      by_cases h : n = k
      · exact hk (h ▸ he)
      · rw [hp n h] at he
        rcases h2 n hn he with h | h
        · exact .inl (hm h)
        · exact .inr h
    cases hv with
    | idle _ hl _ _ _ t e u f =>
      refine ⟨fun h => (h1 (by rw [← f]; exact h)).mono (by omega) (by omega) (by omega), key (by omega) (fun he => ?_)⟩
      rw [hl] at he
      rw [f]; exact h2 k hk he
    | start b l _ _ _ t e u f w =>
      refine ⟨fun h => ?_, key (by omega) (fun he => ?_)⟩
      · by_cases hc : s'.terminate = s.terminate
        · exact (h1 (by omega)).mono (by omega) (by omega) (by omega)
        · rcases w hc with h | h
          · exact .inr (.inl h)
          · exact .inr (.inr (.inr h))
      · rw [l, phase_start b] at he; cases he
    | goOn b l _ _ _ _ was t e u f w =>
      refine ⟨fun h => ?_, key (by omega) (fun he => ?_)⟩
      · by_cases hc : s'.terminate = s.terminate
        · exact (h1 (by omega)).mono (by omega) (by omega) (by omega)
        · rcases w hc with h | h | h
          · exact .inr (.inl h)
          · exact .inr (.inr (.inl h))
          · exact .inr (.inr (.inr h))
      · rw [l, phase_goOn b] at he; cases he
    | finish b x hx l _ _ _ t e u f kp st on w =>
      refine ⟨fun h => ?_, key (fun h0 h => h0 (st h).1) (fun _ => f)⟩
      by_cases hc : s'.terminate = s.terminate
      · exact (h1 (by omega)).mono (by omega) (by omega) (by omega)
      · rcases w hc with h | h | h
        · exact .inl h
        · exact .inr (.inr (.inl h))
        · exact .inr (.inr (.inr h))
    | restart b x hx l _ _ _ t e u f was =>
      refine ⟨fun h => absurd f h, key (by omega) (fun he => ?_)⟩
      rw [l, phase_restart b hx] at he; cases he
  · intro s s' hq hp ⟨h1, h2⟩
    refine ⟨fun h => (h1 (by rw [← hq.terminate]; exact h)).mono ?_ ?_ ?_, fun n hn he => ?_⟩
    · rw [hq.episodes]; omega
    · rw [hq.timesteps]; omega
    · rw [hq.updates]; omega
    · rw [hp n hn] at he; rw [hq.terminate]; exact h2 n hn he
  · intro s s' hs _ hq _ ⟨h1, h2⟩
    refine ⟨fun h => (h1 (by rw [← hq.terminate]; exact h)).mono ?_ ?_ ?_, fun n hn he => .inr hs⟩
    · rw [hq.episodes]; omega
    · rw [hq.timesteps]; omega
    · rw [hq.updates]; omega

theorem countP_below (k m : Nat) : (List.range m).countP (fun n => decide (n < k)) = min k m := by
  induction m with
  | zero => simp
  | succ m ih =>
    rw [List.range_succ, List.countP_append, ih, List.countP_singleton]
    by_cases h : m < k
    · simp only [h, decide_true, if_true]; omega
    · simp only [h, decide_false]; simp; omega

def Phase.alive (p : Phase) : Bool := p ≠ .ended
def Phase.waits (p : Phase) : Bool := p = .resetting

/-- Episodes, with those still going on, do not get beyond `B`. -/
def EpInv (c : Config) (N B : Nat) (s : State) : Prop :=
  s.episodes + c.inPhase Phase.alive s.log ≤ B ∧ (s.terminate = 0 → s.episodes < N)

theorem episodes_bound (hb : c.batch = false) (ht : 0 < c.train) {N B : Nat} (hN : 0 < N) (hlim : c.numEpisodes = some N)
    (hB : c.train ≤ B) (hB' : N ≤ B) (hr : c.syncEpisodes = false → N + c.train ≤ B + 1) (k : Nat) : EpInv c N B (run c o k) := by
  refine (counter_ind hb ht (EpInv c N B) ?_ ?_ ?_ ?_ k).2
  · obtain ⟨-, -, -, -, -, h1, -, h2, -, -⟩ := init_spec (c := c)
    have := inPhase_le (c := c) Phase.alive (init c).log
    exact ⟨by omega, fun _ => by omega⟩
  · intro i k s hk hm hv ⟨h1, h2⟩
    have hc := inPhase_change (c := c) Phase.alive hk (visit_phases (c := c) (o := o) i k s)
    generalize visit c o i s k = s' at hv hc
    have hle := inPhase_le (c := c) Phase.alive s'.log
    cases hv with
    | idle _ hl _ _ _ t e u f =>
      rw [EpInv, hl, e, f]; exact ⟨h1, h2⟩
    | start b l _ _ _ t e u f w =>
      rw [l, phase_start b, b] at hc
      simp [Phase.alive] at hc
      rw [← l] at hc
      refine ⟨by omega, fun h => ?_⟩
      rw [e]; exact h2 (by omega)
    | goOn b l _ _ _ _ was t e u f w =>
      rw [l, phase_goOn b, b] at hc
      simp [Phase.alive] at hc
      rw [← l] at hc
      refine ⟨by omega, fun h => ?_⟩
      rw [e]; exact h2 (by omega)
    | finish b x hx l _ _ _ t e u f kp st on w =>
      rw [l, phase_finish b hx, b] at hc
      simp [Phase.alive] at hc
      rw [← l] at hc
      refine ⟨by omega, fun h => ?_⟩
      have := (st h).2.1
      simpa [hlim, reached] using this
    | restart b x hx l _ _ _ t e u f was sy lim =>
      have hlt : s'.episodes < N := by
        have := lim.1
        simpa [hlim, reached] using this
      have := hr sy
      exact ⟨by omega, fun _ => hlt⟩
  · intro s s' hq hp ⟨h1, h2⟩
    rw [EpInv, hq.episodes, hq.terminate, inPhase_congr Phase.alive hp]; exact ⟨h1, h2⟩
  · intro s s' hs he hq hp ⟨h1, h2⟩
    have h3 : c.inPhase Phase.alive s'.log = min (N - s.episodes) c.train := by
      rw [← countP_below]
      apply List.countP_congr
      intro n hn
      rw [hp n (List.mem_range.mp hn), hlim]
      by_cases h : n < N - s.episodes <;> simp [h, Phase.alive]
    rw [EpInv, hq.episodes, hq.terminate, h3]
    exact ⟨by omega, h2⟩

/-- Actions, with those of environments still to start, do not get beyond the limit by more than the other environments. -/
theorem timesteps_bound (hb : c.batch = false) (ht : 0 < c.train) {T : Nat} (hT : 0 < T) (hlim : c.numTimesteps = some T)
    (hs : c.syncEpisodes = false) (k : Nat) :
    (run c o k).timesteps + c.inPhase Phase.waits (run c o k).log + 1 ≤ T + c.train ∧ ((run c o k).terminate ≠ 2 → (run c o k).timesteps < T) := by
  refine (counter_ind hb ht (fun s => s.timesteps + c.inPhase Phase.waits s.log + 1 ≤ T + c.train ∧ (s.terminate ≠ 2 → s.timesteps < T)) ?_ ?_ ?_ ?_ k).2
  · obtain ⟨-, -, -, -, h1, -, -, h2, -, -⟩ := init_spec (c := c)
    have := inPhase_le (c := c) Phase.waits (init c).log
    exact ⟨by omega, fun _ => by omega⟩
  · intro i k s hk hm hv ⟨h1, h2⟩
    have hc := inPhase_change (c := c) Phase.waits hk (visit_phases (c := c) (o := o) i k s)
    generalize visit c o i s k = s' at hv hc
    have hle := inPhase_le (c := c) Phase.waits s'.log
    cases hv with
    | idle _ hl _ _ _ t e u f =>
      rw [hl, t, f]; exact ⟨h1, h2⟩
    | start b l _ _ _ t e u f w =>
      rw [l, phase_start b, b] at hc
      simp [Phase.waits] at hc
      rw [← l] at hc
      refine ⟨by omega, fun h => ?_⟩
      rcases f with f | f
      · simpa [hlim, reached] using f.2
      · exact absurd f h
    | goOn b l _ _ _ _ was t e u f w =>
      have hlt : c.inPhase Phase.waits s'.log < c.train :=
        inPhase_lt Phase.waits s'.log k hk (by rw [l, phase_goOn b]; rfl)
      have := h2 was
      refine ⟨by omega, fun h => ?_⟩
      rcases f with f | f
      · simpa [hlim, reached] using f.2.1
      · exact absurd f h
    | finish b x hx l _ _ _ t e u f kp st on w =>
      rw [l, phase_finish b hx, b] at hc
      simp [Phase.waits] at hc
      rw [← l] at hc
      refine ⟨by omega, fun h => ?_⟩
      rw [t]
      exact h2 fun h2 => h (kp h2)
    | restart b x hx l _ _ _ t e u f was sy lim =>
      have := h2 (by omega)
      exact ⟨by omega, fun _ => by omega⟩
  · intro s s' hq hp ⟨h1, h2⟩
    rw [hq.timesteps, hq.terminate, inPhase_congr Phase.waits hp]; exact ⟨h1, h2⟩
  · intro s s' hs' 
    rw [hs] at hs'; cases hs'

/-- The flag is 2 once the number of updates is reached. -/
theorem updates_bound (hb : c.batch = false) (ht : 0 < c.train) {U : Nat} (hU : 0 < U) (hlim : c.numUpdates = some U) (k : Nat) :
    (run c o k).terminate ≠ 2 → (run c o k).updates < U := by
  refine (counter_ind hb ht (fun s => s.terminate ≠ 2 → s.updates < U) ?_ ?_ ?_ ?_ k).2
  · obtain ⟨-, -, -, -, -, -, h1, -, -, -⟩ := init_spec (c := c)
    exact fun _ => by omega
  · intro i k s hk hm hv h2
    generalize visit c o i s k = s' at hv
    cases hv with
    | idle _ hl _ _ _ t e u f => rw [u, f]; exact h2
    | start b l _ _ _ t e u f w => intro h; rw [u]; exact h2 (by omega)
    | goOn b l _ _ _ _ was t e u f w =>
      intro h
      rcases f with f | f
      · simpa [hlim, reached] using f.2.2
      · exact absurd f h
    | finish b x hx l _ _ _ t e u f kp st on w two halt =>
      intro h
      have : ¬ reached s'.updates c.numUpdates = true := fun hr => h (halt hr)
      simpa [hlim, reached] using this
    | restart b x hx l _ _ _ t e u f was sy lim => intro _; simpa [hlim, reached] using lim.2
  · intro s s' hq hp h; rw [hq.updates, hq.terminate]; exact h
  · intro s s' _ _ hq _ h; rw [hq.updates, hq.terminate]; exact h

/-! ## The end of the loop -/

theorem not_continues {s : State} (h : ¬ continues c s) (n : Nat) (hn : n < c.envs) : 0 < s.prev n := by
  have : ¬ s.prev n ≤ 0 := fun hp => h ⟨n, hn, hp⟩
  omega

/-- At the end all episodes have been ended. -/
theorem all_ended {s : State} (hg : Good c s) (h : ¬ continues c s) (n : Nat) (hn : n < c.train) : phase n s.log = .ended := by
  have := not_continues h n (by have := train_le (c := c); omega)
  rcases hg n hn with h | h | h
  · exact h.2
  · omega
  · omega

/-- With joint resets, only the number of episodes ends the loop. -/
theorem sync_end (ht : 0 < c.train) (hs : c.syncEpisodes = true) (k : Nat) (h : ¬ continues c (run c o k)) :
    ∃ N, c.numEpisodes = some N ∧ N ≤ (run c o k).episodes := by
  have hle := train_le (c := c)
  induction k with
  | zero => exact absurd ⟨0, by omega, by rw [run, init_spec.2.2.1]; decide⟩ h
  | succ k ih =>
    unfold run at h ⊢
    split
    case isFalse hc => exact ih hc
    case isTrue hc =>
      rw [if_pos hc] at h
      unfold iteration at h ⊢
      dsimp only at h ⊢
      generalize (List.range c.envs).foldl (visit c o k) (jointly c o (run c o k)) = s1 at h ⊢
      rw [syncReset_eq] at h ⊢
      split at h
      case isFalse hf =>
        refine absurd ⟨hs, fun n hn => ?_⟩ hf
        exact not_continues h n hn
      case isTrue hf =>
        rw [if_pos hf]
        obtain ⟨h1, -, -, -, h2⟩ := resetAll_spec (toReset c { s1 with prev := s1.terms }) { s1 with prev := s1.terms }
        have hp := not_continues h 0 (by omega)
        rw [h1] at hp
        have hnm : 0 ∉ toReset c { s1 with prev := s1.terms } := fun hm => by rw [if_pos hm] at hp; omega
        rw [mem_toReset _ 0 ht] at hnm
        cases hN : c.numEpisodes with
        | none => exact absurd (fun N hN' => by rw [hN] at hN'; cases hN') hnm
        | some N =>
          refine ⟨N, rfl, ?_⟩
          rw [h2.episodes]
          by_cases hlt : 0 < N - s1.episodes
          · refine absurd (fun M hM => ?_) hnm
            rw [hN] at hM
            cases hM
            exact hlt
          · show N ≤ s1.episodes
            omega

end Verif.Runner
