import Verif.Runner.Alone
import Verif.Runner.Batch

/-! # C38: the runner executes the requested number of episodes, timesteps or updates -/

namespace Verif.Props.Runner

open Verif.Runner

variable {c : Config} {o : Oracle}

/-! ## Configurations for examples -/

/-- One environment, `num_episodes = N`. -/
def single (N : Nat) : Config := ⟨1, false, false, false, false, some N, none, none, some 1, none⟩

/-- Two environments, otherwise the same. -/
def pair (N : Nat) : Config := { single N with envs := 2 }

/-- Every environment always answers and ends its episodes at the third timestep. -/
def three : Oracle := ⟨fun _ _ => true, fun _ _ m => if 3 ≤ m then 1 else 0, fun _ => 0, fun _ => true⟩

/-- Environments that never end an episode. -/
def endless : Oracle := { three with code := fun _ _ _ => 0 }

/-! ## Every episode is reset, executed and observed until its end -/

theorem good_run (hm : c.batch = false ∨ Soft c o) (ht : 0 < c.train) (k : Nat) : Good c (run c o k) := by
  cases hb : c.batch with
  | false => exact run_good hb k
  | true => exact (batch_run hb ht (hm.resolve_left (by rw [hb]; decide)) k).good

/-- No environment is treated out of order, and none is left in the middle of an episode.
With batched calls only if nothing but episode limits end the run. -/
theorem protocol_partial (hm : c.batch = false ∨ Soft c o) {n : Nat} (hn : n < c.train) (k : Nat) :
    phase n (run c o k).log ≠ .bad ∧ (¬ continues c (run c o k) → phase n (run c o k).log = .ended) :=
  have hg := good_run hm (by omega) k
  ⟨hg.not_bad hn, fun h => all_ended hg h n hn⟩

example : ¬ continues (pair 3) (run (pair 3) three 20) ∧ phase 1 (run (pair 3) three 20).log = .ended := by
  have h : ¬ continues (pair 3) (run (pair 3) three 20) := by decide +kernel
  exact ⟨h, (protocol_partial (.inl rfl) (by decide) 20).2 h⟩

/-- Batched calls: once timesteps are used up, the agent has acted again, on a non-terminal observation, before the runner ends the episode. -/
theorem batch_cut_violation :
    let c : Config := { pair 3 with batch := true, syncTimesteps := true, numEpisodes := none, numTimesteps := some 2 }
    c.Valid ∧ ¬ continues c (run c three 2) ∧ phase 0 (run c three 2).log = .acted ∧ phase 1 (run c three 2).log = .acted := by
  decide +kernel

/-! ## Counters -/

/-- `timesteps` is the number of actions, `episodes` the number of terminal observations. -/
theorem counters_partial (hm : c.batch = false ∨ Soft c o) (ht : 0 < c.train) (k : Nat) :
    (run c o k).timesteps = (run c o k).log.countP Event.isAct ∧ (run c o k).episodes = (run c o k).log.countP Event.isEnd := by
  cases hb : c.batch with
  | false => exact counts hb ht k
  | true =>
    have h := batch_run hb ht (hm.resolve_left (by rw [hb]; decide)) k
    exact ⟨h.acts, h.ends⟩

/-- Batched calls: the cut off episodes are counted though the agent saw no end. -/
theorem batch_count_violation :
    let c : Config := { pair 3 with batch := true, syncTimesteps := true, numEpisodes := none, numTimesteps := some 2 }
    (run c three 2).episodes = 2 ∧ (run c three 2).log.countP Event.isEnd = 0 ∧
    (run c three 2).timesteps = 2 ∧ (run c three 2).log.countP Event.isAct = 4 := by
  decide +kernel

example : (run (pair 3) three 20).log.countP Event.isEnd = 4 := by
  rw [← (counters_partial (.inl rfl) (by decide) 20).2]
  decide +kernel

/-! ## The loop ends only for a reason -/

theorem ends_for_a_reason (hb : c.batch = false) (ht : 0 < c.train) (k : Nat) (h : ¬ continues c (run c o k)) : LimitReached c o (run c o k) := by
  cases hs : c.syncEpisodes with
  | true =>
    obtain ⟨N, hN, hle⟩ := sync_end ht hs k h
    left; simp [hN, reached, hle]
  | false =>
    obtain ⟨h1, h2⟩ := stop_reason (o := o) hb ht k
    rcases h2 0 ht (all_ended (run_good hb k) h 0 ht) with h | h
    · exact h1 h
    · rw [hs] at h; cases h

example : LimitReached (single 2) three (run (single 2) three 9) := ends_for_a_reason rfl (by decide) 9 (by decide +kernel)

/-! ## Number of episodes -/

/-- Only the number of episodes ends the run. -/
structure OnlyEpisodes (c : Config) (o : Oracle) (N : Nat) : Prop where
  episodes : c.numEpisodes = some N
  positive : 0 < N
  timesteps : c.numTimesteps = none
  updates : c.numUpdates = none
  callback : ∀ l, o.callback l = true

/-- At most one episode more per further environment. -/
theorem episodes_at_most (hm : c.batch = false ∨ Soft c o) (ht : 0 < c.train) {N : Nat} (hN : c.numEpisodes = some N) (h0 : 0 < N) (k : Nat) :
    (run c o k).episodes + 1 ≤ N + c.train := by
  cases hb : c.batch with
  | false =>
    have := (episodes_bound (o := o) (B := N + c.train - 1) hb ht h0 hN (by omega) (by omega) (by omega) k).1
    omega
  | true =>
    have := ((batch_run hb ht (hm.resolve_left (by rw [hb]; decide)) k).count.bound N (N + c.train - 1) hN (by omega) (by omega) h0 (by omega)).1
    omega

/-- With joint resets at most the larger of `num_episodes` and the number of environments. -/
theorem joint_episodes_at_most (hm : c.batch = false ∨ Soft c o) (hs : c.syncEpisodes = true) (ht : 0 < c.train) {N : Nat}
    (hN : c.numEpisodes = some N) (h0 : 0 < N) (k : Nat) : (run c o k).episodes ≤ max N c.train := by
  cases hb : c.batch with
  | false =>
    have := (episodes_bound (o := o) (B := max N c.train) hb ht h0 hN (by omega) (by omega) (by rw [hs]; simp) k).1
    omega
  | true =>
    have := ((batch_run hb ht (hm.resolve_left (by rw [hb]; decide)) k).count.bound N (max N c.train) hN (by omega) (by omega) h0 (by rw [hs]; simp)).1
    omega

/-- At least `num_episodes`, whatever the number of environments and the mode. -/
theorem episodes_at_least (ht : 0 < c.train) {N : Nat} (ho : OnlyEpisodes c o N) (k : Nat) (h : ¬ continues c (run c o k)) :
    N ≤ (run c o k).episodes := by
  cases hb : c.batch with
  | false =>
    rcases ends_for_a_reason hb ht k h with h | h | h | h
    · simpa [ho.episodes, reached] using h
    · simp [ho.timesteps, reached] at h
    · simp [ho.updates, reached] at h
    · obtain ⟨l, h⟩ := h; rw [ho.callback] at h; cases h
  | true =>
    cases hs : c.syncEpisodes with
    | true =>
      obtain ⟨M, hM, hle⟩ := sync_end ht hs k h
      rw [ho.episodes] at hM
      cases hM
      exact hle
    | false =>
      have hr := batch_run hb ht ⟨ho.timesteps, ho.updates, .inr ho.callback⟩ k
      have hp := not_continues h 0 (by have := train_le (c := c); omega)
      rcases hr.count.ended 0 ht hp with hz | hz
      · rcases hr.count.why hz with h | ⟨l, h⟩
        · simpa [ho.episodes, reached] using h
        · rw [ho.callback] at h; cases h
      · rw [hs] at hz; cases hz

/-- One environment: the run ends after exactly `num_episodes` episodes, and these are the ends the agent observes. -/
theorem one_environment_episodes (hv : c.Valid) (h1 : c.envs = 1) (he : c.evaluation = false) {N : Nat} (ho : OnlyEpisodes c o N) (k : Nat) :
    (run c o k).episodes ≤ N ∧ (¬ continues c (run c o k) → (run c o k).episodes = N ∧ (run c o k).log.countP Event.isEnd = N) := by
  have ht : c.train = 1 := by simp [Config.train, he, h1]
  have hb := (hv.2 h1).1
  have h2 := episodes_at_most (o := o) (.inl hb) (by omega) ho.episodes ho.positive k
  refine ⟨by omega, fun h => ?_⟩
  have h3 := episodes_at_least (by omega) ho k h
  have h4 := (counters_partial (o := o) (.inl hb) (by omega) k).2
  omega

example : (run (single 2) three 9).episodes = 2 ∧ (run (single 2) three 9).log.countP Event.isEnd = 2 :=
  (one_environment_episodes (c := single 2) (by decide) rfl rfl ⟨rfl, by decide, rfl, rfl, fun _ => rfl⟩ 9).2 (by decide +kernel)

/-- The evaluation environment alone: the same. -/
theorem evaluation_episodes (hv : c.Valid) (h1 : c.envs = 1) (he : c.evaluation = true) {N : Nat} (ho : OnlyEpisodes c o N) (k : Nat) :
    (run c o k).episodes ≤ N ∧ (¬ continues c (run c o k) → (run c o k).episodes = N) := by
  obtain ⟨hb, -, hs⟩ := hv.2 h1
  have h := alone_run (o := o) h1 he hb hs ho.positive ho.episodes ho.timesteps ho.callback k
  refine ⟨?_, fun hc => h.over (not_continues hc 0 (by omega))⟩
  by_cases hp : (run c o k).prev 0 ≤ 0
  · have := h.going hp; omega
  · have := h.over (by omega); omega

example : (run { single 2 with evaluation := true } three 9).episodes = 2 :=
  (evaluation_episodes (c := { single 2 with evaluation := true }) (by decide) rfl rfl ⟨rfl, by decide, rfl, rfl, fun _ => rfl⟩ 9).2 (by decide +kernel)

/-- Joint resets: exactly `num_episodes` if there are not more environments. -/
theorem joint_episodes (hs : c.syncEpisodes = true) (ht : 0 < c.train) {N : Nat} (hle : c.train ≤ N) (ho : OnlyEpisodes c o N) (k : Nat)
    (h : ¬ continues c (run c o k)) : (run c o k).episodes = N := by
  have h1 := joint_episodes_at_most (o := o) (.inr ⟨ho.timesteps, ho.updates, .inr ho.callback⟩) hs ht ho.episodes ho.positive k
  have h2 := episodes_at_least ht ho k h
  omega

example : (run { pair 3 with syncEpisodes := true } three 12).episodes = 3 :=
  joint_episodes (c := { pair 3 with syncEpisodes := true }) rfl (by decide) (by decide) ⟨rfl, by decide, rfl, rfl, fun _ => rfl⟩ 12 (by decide +kernel)

/-- Several environments without joint resets may run more episodes than requested. -/
theorem surplus_episode : ¬ continues (pair 3) (run (pair 3) three 20) ∧ (run (pair 3) three 20).episodes = 4 := by decide +kernel

/-! ## The loop does end -/

/-- If episodes have at most `L` timesteps, the run is over after `(N + environments) * (L + 1)` iterations. -/
theorem run_ends_partial (hb : c.batch = false) (he : c.evaluation = false) (h1 : 0 < c.envs) {N L : Nat} (hN : c.numEpisodes = some N)
    (h0 : 0 < N) (hL : 0 < L) (hcode : ∀ l n m, L ≤ m → o.code l n m ≠ 0) (hready : ∀ i n, (c.syncTimesteps || o.ready i n) = true)
    (k : Nat) (hk : (N + c.envs) * (L + 1) ≤ k) : ¬ continues c (run c o k) := by
  intro hc
  have ht : c.train = c.envs := by simp [Config.train, he]
  have hp := run_progress hb he hL hcode hready k hc
  have hg := run_good (o := o) hb k
  have hle := episodes_at_most (o := o) (.inl hb) (by omega) hN h0 k
  obtain ⟨n, hn, hpn⟩ := hc
  have hn : n < c.train := by omega
  have hne : phase n (run c o k).log ≠ .ended := by
    rcases hg n hn with e | e | e
    · omega
    · rw [e.2.2]; decide
    · rw [e.2.2]; decide
  have h2 := hp.time n hn hne
  rw [if_neg (by omega)] at h2
  have hst := hp.steps n hn
  have hsteps : (run c o k).steps n ≤ L := by
    by_cases hx : phase n (run c o k).log = .executing
    · exact hst.1 hx
    · rw [hst.2 hx]; omega
  have hmul : (run c o k).episodes * (L + 1) ≤ (N + c.envs - 1) * (L + 1) := Nat.mul_le_mul_right _ (by omega)
  have hmul2 : (N + c.envs) * (L + 1) = (N + c.envs - 1) * (L + 1) + (L + 1) := by
    rw [show N + c.envs = (N + c.envs - 1) + 1 by omega, Nat.add_mul]; simp
  omega

example : ¬ continues (single 2) (run (single 2) three 12) :=
  run_ends_partial rfl rfl (by decide) (N := 2) (L := 3) rfl (by decide) (by decide)
    (fun _ _ m h => by show (if 3 ≤ m then 1 else 0) ≠ 0; rw [if_pos h]; decide) (fun _ _ => rfl) 12 (by decide)

/-! ## Number of timesteps and updates -/

/-- At most one timestep more per further environment. -/
theorem timesteps_at_most (hb : c.batch = false) (hs : c.syncEpisodes = false) (ht : 0 < c.train) {T : Nat} (hT : c.numTimesteps = some T)
    (h0 : 0 < T) (k : Nat) : (run c o k).timesteps + 1 ≤ T + c.train := by
  have := (timesteps_bound (o := o) hb ht h0 hT hs k).1
  omega

/-- One environment: the run ends after exactly `num_timesteps` actions. -/
theorem one_environment_timesteps (hv : c.Valid) (h1 : c.envs = 1) (he : c.evaluation = false) {T : Nat} (hT : c.numTimesteps = some T)
    (h0 : 0 < T) (hE : c.numEpisodes = none) (hU : c.numUpdates = none) (hc : ∀ l, o.callback l = true) (k : Nat) :
    (run c o k).timesteps ≤ T ∧ (¬ continues c (run c o k) → (run c o k).timesteps = T ∧ (run c o k).log.countP Event.isAct = T) := by
  have ht : c.train = 1 := by simp [Config.train, he, h1]
  obtain ⟨hb, -, hs⟩ := hv.2 h1
  have h2 := timesteps_at_most (o := o) hb hs (by omega) hT h0 k
  refine ⟨by omega, fun h => ?_⟩
  have h3 : T ≤ (run c o k).timesteps := by
    rcases ends_for_a_reason hb (by omega) k h with h | h | h | h
    · simp [hE, reached] at h
    · simpa [hT, reached] using h
    · simp [hU, reached] at h
    · obtain ⟨l, h⟩ := h; rw [hc] at h; cases h
  have h4 := (counters_partial (o := o) (.inl hb) (by omega) k).1
  omega

example : (run { single 1 with numEpisodes := none, numTimesteps := some 5 } three 8).log.countP Event.isAct = 5 :=
  ((one_environment_timesteps (c := { single 1 with numEpisodes := none, numTimesteps := some 5 }) (by decide) rfl rfl rfl (by decide) rfl rfl
    (fun _ => rfl) 8).2 (by decide +kernel)).2

/-- Once the number of timesteps is reached, every environment answers at most twice until the run is over. -/
theorem timestep_limit_partial (hb : c.batch = false) (he : c.evaluation = false) (hs : c.syncEpisodes = false) (h1 : 0 < c.envs) {T : Nat}
    (hT : c.numTimesteps = some T) (h0 : 0 < T) (k : Nat) (hk : T ≤ (run c o k).timesteps) (j : Nat)
    (hj : ∀ n, n < c.envs → 2 ≤ answers c o n k j) : ¬ continues c (run c o (k + j)) := by
  have ht : c.train = c.envs := by simp [Config.train, he]
  have h2 : (run c o k).terminate = 2 := by
    have := (timesteps_bound (o := o) hb (by omega) h0 hT hs k).2
    by_cases h : (run c o k).terminate = 2
    · exact h
    · have := this h; omega
  refine good_ended (run_good hb _) he fun n hn => ?_
  have h3 := (rank_falls hb hs h2 hn j).2
  have h4 := rank_le_two (phase n (run c o k).log)
  have h5 := hj n (by omega)
  omega

/-- The same for the number of updates. -/
theorem update_limit_partial (hb : c.batch = false) (he : c.evaluation = false) (hs : c.syncEpisodes = false) (h1 : 0 < c.envs) {U : Nat}
    (hU : c.numUpdates = some U) (h0 : 0 < U) (k : Nat) (hk : U ≤ (run c o k).updates) (j : Nat)
    (hj : ∀ n, n < c.envs → 2 ≤ answers c o n k j) : ¬ continues c (run c o (k + j)) := by
  have ht : c.train = c.envs := by simp [Config.train, he]
  have h2 : (run c o k).terminate = 2 := by
    by_cases h : (run c o k).terminate = 2
    · exact h
    · have := updates_bound (o := o) hb (by omega) h0 hU k h; omega
  refine good_ended (run_good hb _) he fun n hn => ?_
  have h3 := (rank_falls hb hs h2 hn j).2
  have h4 := rank_le_two (phase n (run c o k).log)
  have h5 := hj n (by omega)
  omega

example : ¬ continues { pair 1 with numEpisodes := none, numTimesteps := some 5 }
    (run { pair 1 with numEpisodes := none, numTimesteps := some 5 } endless (3 + 2)) :=
  timestep_limit_partial rfl rfl rfl (by decide) (T := 5) rfl (by decide) 3 (by decide +kernel) 2 (by decide +kernel)

example : ¬ continues { pair 1 with numEpisodes := none, numUpdates := some 3 }
    (run { pair 1 with numEpisodes := none, numUpdates := some 3 } { endless with updated := fun _ => 1 } (3 + 2)) :=
  update_limit_partial rfl rfl rfl (by decide) (U := 3) rfl (by decide) 3 (by decide +kernel) 2 (by decide +kernel)

/-- Joint resets: neither the number of timesteps nor that of updates nor the callback ever ends the run. -/
theorem joint_reset_violation (hs : c.syncEpisodes = true) (ht : 0 < c.train) (hN : c.numEpisodes = none) (k : Nat) : continues c (run c o k) := by
  by_cases h : continues c (run c o k)
  · exact h
  · obtain ⟨N, h, -⟩ := sync_end ht hs k h
    rw [hN] at h; cases h

example (k : Nat) : continues { pair 1 with syncEpisodes := true, numEpisodes := none, numTimesteps := some 1, numUpdates := some 1 }
    (run { pair 1 with syncEpisodes := true, numEpisodes := none, numTimesteps := some 1, numUpdates := some 1 } three k) ∧
    Config.Valid { pair 1 with syncEpisodes := true, numEpisodes := none, numTimesteps := some 1, numUpdates := some 1 } :=
  ⟨joint_reset_violation rfl (by decide) rfl k, by decide⟩

/-- Evaluation episodes are not cut off: while one goes on, no limit ends the run. -/
theorem evaluation_violation (he : c.evaluation = true) (h0 : 0 < c.envs) (hcode : ∀ l m, o.code l (c.envs - 1) m = 0) (k : Nat) :
    continues c (run c o k) := by
  refine ⟨c.envs - 1, by omega, ?_⟩
  induction k with
  | zero => rw [run, init_spec.2.2.1]; decide
  | succ k ih =>
    unfold run
    split
    · exact eval_goes_on he h0 hcode k _ ih
    · exact ih

example (k : Nat) : continues { single 1 with evaluation := true, numTimesteps := some 1 }
    (run { single 1 with evaluation := true, numTimesteps := some 1 } endless k) :=
  evaluation_violation rfl (by decide) (fun _ _ => rfl) k

end Verif.Props.Runner
