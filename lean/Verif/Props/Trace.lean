import Verif.Runner.Evaluation
import Verif.Props.Runner

/-! # C51: every call of the runner is due -/

namespace Verif.Props.Trace

open Verif.Runner
open Verif.Props.Runner (single pair three endless)

variable {c : Config} {o : Oracle}

/-- Separate agent calls: every event of every environment, training or evaluation, was due when it happened. -/
theorem due_partial (hb : c.batch = false) {n : Nat} (hn : n < c.envs) (k : Nat) {later l : List Event} {e : Event}
    (hl : (run c o k).log = later ++ e :: l) (he : e.env = n) : Due c o n e l :=
  mem_due ((traced_run hb k).2 n hn).due hl he

/-- When the run is over, the last episode of every environment has ended. -/
theorem over_ended_partial (hb : c.batch = false) {n : Nat} (hn : n < c.envs) (k : Nat) (h : ¬ continues c (run c o k)) : Ended c o n (run c o k).log := by
  obtain ⟨-, h1 | h1 | h1⟩ := (traced_run (o := o) hb k).2 n hn
  · exact h1.2.2
  · exact absurd ⟨n, hn, h1.1⟩ h
  · exact absurd ⟨n, hn, h1.1⟩ h

/-- Two environments, the second for evaluation. -/
def mixed : Config := { pair 2 with evaluation := true }

example : Due mixed three 1 (.evalAct 1) [.execute 0, .act 0, .observe 0 0, .execute 1, .evalAct 1, .execute 0, .act 0, .reset 1, .reset 0] := by
  refine due_partial (c := mixed) (o := three) rfl (by decide) 2 (later := [.execute 1]) ?_ rfl
  decide +kernel

example : ¬ continues mixed (run mixed three 20) ∧ Ended mixed three 1 (run mixed three 20).log :=
  have h : ¬ continues mixed (run mixed three 20) := by decide +kernel
  ⟨h, over_ended_partial rfl (by decide) 20 h⟩

/-- The runner counts the actions of the training environments, or of the evaluation environment if there is no other. -/
theorem timesteps_counted_partial (hb : c.batch = false) (k : Nat) : (run c o k).timesteps = timestepsOf c (run c o k).log := (traced_run hb k).1.timesteps

/-- The runner counts the updates that `observe` reports. -/
theorem updates_counted_partial (hb : c.batch = false) (k : Nat) : (run c o k).updates = updatesOf o (run c o k).log := (traced_run hb k).1.updates

/-- The runner's `episode_timestep` is the number of timesteps since the last reset, in the middle of an episode. -/
theorem episode_timestep_partial (hb : c.batch = false) {n : Nat} (hn : n < c.envs) (k : Nat) (h : (run c o k).prev n ≤ 0) :
    (run c o k).steps n = stepsOf n (run c o k).log := by
  obtain ⟨-, h1 | h1 | h1⟩ := (traced_run (o := o) hb k).2 n hn
  · omega
  · rw [h1.2.2.1, stepsOf_reset h1.2.2.2]
  · exact h1.2.2.1

example : (run { single 1 with evaluation := true } three 3).timesteps = 3 ∧ timestepsOf { single 1 with evaluation := true } (run { single 1 with evaluation := true } three 3).log = 3 := by
  decide +kernel
example : (run (pair 2) { three with updated := fun _ => 1 } 3).updates = 4 ∧ updatesOf { three with updated := fun _ => 1 } (run (pair 2) { three with updated := fun _ => 1 } 3).log = 4 := by
  decide +kernel
example : (run (pair 2) three 2).prev 0 ≤ 0 ∧ (run (pair 2) three 2).steps 0 = 2 := by decide +kernel

/-- An environment that is not done and answers is reset, or told its next action, or its episode ends. -/
theorem answers_move_partial (hb : c.batch = false) {n : Nat} (hn : n < c.envs) (k : Nat) (hp : (run c o k).prev n ≤ 0)
    (hr : (c.syncTimesteps || o.ready k n) = true) :
    0 < (run c o (k + 1)).prev n ∨
    ((run c o k).log.countP fun e => decide (e.env = n)) < (run c o (k + 1)).log.countP fun e => decide (e.env = n) := by
  have : run c o (k + 1) = iteration c o k (run c o k) := by rw [run, if_pos ⟨n, hn, hp⟩]
  rw [this]
  exact iteration_moves hb hn k _ hp hr

example : 0 < (run mixed three 1).prev 1 ∨ ((run mixed three 0).log.countP fun e => decide (e.env = 1)) < (run mixed three 1).log.countP fun e => decide (e.env = 1) :=
  answers_move_partial rfl (by decide) 0 (by decide +kernel) rfl

/-- Only an evaluation environment: one reset for each episode. -/
theorem evaluation_resets (hv : c.Valid) (h1 : c.envs = 1) (he : c.evaluation = true) (k : Nat) :
    (run c o k).log.countP Event.isReset = (run c o k).episodes + (if continues c (run c o k) then 1 else 0) := by
  obtain ⟨hb, -, hs⟩ := hv.2 h1
  rw [alone_resets ⟨h1, he, hb, hs⟩]
  by_cases hp : (run c o k).prev 0 ≤ 0
  · rw [if_pos hp, if_pos ⟨0, by omega, hp⟩]
  · rw [if_neg hp, if_neg]
    intro ⟨n, hn, h⟩
    have : n = 0 := by omega
    subst this
    exact hp h

/-- Only an evaluation environment with episodes of at most `L` timesteps: the run is over after `N * (L + 1)` iterations. -/
theorem evaluation_ends_partial (hv : c.Valid) (h1 : c.envs = 1) (he : c.evaluation = true) {N L : Nat} (hN : c.numEpisodes = some N) (h0 : 0 < N)
    (hL : 0 < L) (hcode : ∀ l m, L ≤ m → o.code l 0 m ≠ 0) (hready : ∀ i, (c.syncTimesteps || o.ready i 0) = true) (k : Nat)
    (hk : N * (L + 1) ≤ k) : ¬ continues c (run c o k) := by
  intro hc
  obtain ⟨hb, -, hs⟩ := hv.2 h1
  obtain ⟨h2, h3, h4⟩ := alone_progress ⟨h1, he, hb, hs⟩ hN h0 hL hcode hready k hc
  have hmul : ((run c o k).episodes + 1) * (L + 1) ≤ N * (L + 1) := Nat.mul_le_mul_right _ (by omega)
  rw [Nat.add_mul] at hmul
  omega

example : (run { single 2 with evaluation := true } three 8).log.countP Event.isReset = 2 ∧ ¬ continues { single 2 with evaluation := true } (run { single 2 with evaluation := true } three 8) :=
  ⟨by decide +kernel, evaluation_ends_partial (c := { single 2 with evaluation := true }) (N := 2) (L := 3) (by decide) rfl rfl rfl (by decide) (by decide)
    (fun _ m h => by show (if 3 ≤ m then 1 else 0) ≠ 0; rw [if_pos h]; decide) (fun _ => rfl) 8 (by decide)⟩

/-- Batched calls: the run is over although the last episode has not ended. -/
theorem batch_due_violation :
    let c : Config := { pair 3 with batch := true, syncTimesteps := true, numEpisodes := none, numTimesteps := some 2 }
    c.Valid ∧ ¬ continues c (run c three 2) ∧ ¬ Ended c three 0 (run c three 2).log := by
  decide +kernel

end Verif.Props.Trace
