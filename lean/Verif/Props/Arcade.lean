import Verif.Game.Lemmas

/-!
# C133: loss of life in the Arcade Learning Environment

The adapter signals a terminal state and changes the reward on loss of life, as documented.
-/

namespace Verif.Props.Arcade

open Verif.Game

variable {σ α : Type}

/-- A game with two lives: each action costs one, and the game is over without. -/
def falling : Console Nat Char := ⟨['a', 'b'], fun s _ => (s - 1, 10), fun s => s = 0, fun s => s, fun _ => [255]⟩

/-- A game with a bonus: the number of lives is 3, then 4, then 3. -/
def bonus : Console Nat Char := ⟨['a'], fun s _ => (s + 1, 1), fun s => 10 < s, fun s => if s = 1 then 4 else 3, fun _ => []⟩

theorem falling_played : Played falling 2 [0, 1] [(2, 10, 1), (1, 10, 0)] 0 :=
  Played.cons (k := 0) (a := 'a') rfl (Played.cons (k := 1) (a := 'b') rfl (Played.nil _))

/-- Every sequence of allowed actions can be executed after a reset, with one outcome for each. -/
theorem executed (c : Arcade) (g : Console σ α) (s : σ) (ks : List Int) (h : ∀ k ∈ ks, Allowed (arcadeActions g) k) :
    ∃ l t q outs, Played g s ks l t ∧ l.length = ks.length ∧ arcadeRun c g (arcadeReset g s).1 ks = .ok (q, outs) ∧ outs.length = ks.length := by
  obtain ⟨l, t, hp⟩ := played_exists g s ks h
  have hl := played_length hp
  exact ⟨l, t, _, _, hp, hl, run_records c g hp (g.lives s), by rw [records_length, hl]⟩

example : ∀ k ∈ [0, 1], Allowed (arcadeActions falling) k := by decide +kernel

/-- For all games: loss of life is signalled when the number of lives is lower than ever since the reset, by a terminal if demanded, and
by the punishment otherwise, if it is positive. -/
theorem signalled (c : Arcade) (g : Console σ α) {s t : σ} {ks : List Int} {l : List (σ × Rat × σ)} (h : Played g s ks l t) :
    ∃ low, arcadeRun c g (arcadeReset g s).1 ks = .ok ((t, low), records g c (g.lives s) l) :=
  ⟨_, run_records c g h (g.lives s)⟩

example : Played falling 2 [0, 1] [(2, 10, 1), (1, 10, 0)] 0 := falling_played

/-- In a game in which lives are never gained each step has the documented outcome, with the negative of `life_loss_punishment` as
reward on loss of life. Missing for the property: games in which lives are gained, positive rewards, rewards together with terminals, and
the documented names of the arguments, see the violations. -/
theorem documented_partial (g : Console σ α) (hg : ∀ s a, g.lives (g.act s a).1 ≤ g.lives s) (terminate : Bool) (w : Rat)
    (hw : w = 0 ∨ (terminate = false ∧ w ≤ 0)) {s t : σ} {ks : List Int} {l : List (σ × Rat × σ)} (h : Played g s ks l t) :
    ∃ low, arcadeRun ⟨terminate, -w⟩ g (arcadeReset g s).1 ks = .ok ((t, low), l.map (documented g terminate w)) := by
  have e := run_records ⟨terminate, -w⟩ g h (g.lives s)
  rw [records_documented g hg terminate w hw h] at e
  exact ⟨_, e⟩

example : (∀ s a, falling.lives (falling.act s a).1 ≤ falling.lives s) ∧ Played falling 2 [0, 1] [(2, 10, 1), (1, 10, 0)] 0 :=
  ⟨fun s _ => by show ((s - 1 : Nat) : Int) ≤ s; omega, falling_played⟩

/-- In such a game the return of an episode is the score and the reward for each step with a lost life. Missing for the property: as for
`documented_partial`. -/
theorem return_partial (g : Console σ α) (hg : ∀ s a, g.lives (g.act s a).1 ≤ g.lives s) (terminate : Bool) (w : Rat)
    (hw : w = 0 ∨ (terminate = false ∧ w ≤ 0)) {s t : σ} {ks : List Int} {l : List (σ × Rat × σ)} (h : Played g s ks l t) :
    ∃ low outs, arcadeRun ⟨terminate, -w⟩ g (arcadeReset g s).1 ks = .ok ((t, low), outs) ∧
      (outs.map (fun o => o.reward)).sum = (l.map (fun e => e.2.1)).sum + losses g l * w := by
  obtain ⟨low, e⟩ := documented_partial g hg terminate w hw h
  exact ⟨low, _, e, sum_documented g terminate w l⟩

example : losses falling [(2, 10, 1), (1, 10, 0)] = 2 := by decide +kernel

/-- Without the two arguments, rewards and terminals are those of the game, for all games. -/
theorem defaults (g : Console σ α) {s t : σ} {ks : List Int} {l : List (σ × Rat × σ)} (h : Played g s ks l t) :
    ∃ low outs, arcadeRun ⟨false, 0⟩ g (arcadeReset g s).1 ks = .ok ((t, low), outs) ∧
      outs.map (fun o => o.reward) = l.map (fun e => e.2.1) ∧ outs.map (fun o => o.terminal) = l.map (fun e => g.over e.2.2) := by
  refine ⟨_, _, run_records _ g h (g.lives s), ?_⟩
  generalize g.lives s = low
  clear h
  induction l generalizing low with
  | nil => exact ⟨rfl, rfl⟩
  | cons e l ih =>
    obtain ⟨h1, h2⟩ := ih (min low (g.lives e.2.2))
    simp only [records, List.map_cons, h1, h2]
    simp

example : Played falling 2 [0, 1] [(2, 10, 1), (1, 10, 0)] 0 := falling_played

/-- The end of the game is always signalled. -/
theorem over_signalled (c : Arcade) (g : Console σ α) (state q : σ × Int) (k : Int) (o : Out (List Rat)) (h : arcadeExecute c g state k = .ok (q, o))
    (ho : g.over q.1 = true) : o.terminal = true := by
  unfold arcadeExecute at h
  split at h
  · cases h
  · rw [arcadeAfter_eq] at h
    injection h with h
    obtain ⟨rfl, rfl⟩ := Prod.mk.inj h
    simp only [record]
    simp only at ho
    rw [ho, Bool.true_or]

example : (arcadeExecute ⟨false, 0⟩ falling (1, 1) 0).toOption.map (fun r => r.2.terminal) = some true ∧ falling.over 0 = true := by decide +kernel

/-- The values of the states are within the announced bounds. -/
theorem within_bounds (c : Arcade) (g : Console σ α) (hg : ∀ s, ∀ b ∈ g.screen s, b ≤ 255) (state q : σ × Int) (k : Int) (o : Out (List Rat))
    (h : arcadeExecute c g state k = .ok (q, o)) : ∀ x ∈ o.states, 0 ≤ x ∧ x ≤ 1 := by
  unfold arcadeExecute at h
  split at h
  · cases h
  · rw [arcadeAfter_eq] at h
    injection h with h
    obtain ⟨_, rfl⟩ := Prod.mk.inj h
    exact normalize_range _ (hg _)

example : ∀ s, ∀ b ∈ falling.screen s, b ≤ 255 := fun _ b hb => by
  have : b = 255 := List.mem_singleton.mp hb
  omega

/-- A reset returns the first screen, within the bounds as well, and changes nothing in the game. -/
theorem reset (g : Console σ α) (hg : ∀ s, ∀ b ∈ g.screen s, b ≤ 255) (s : σ) :
    (arcadeReset g s).1.1 = s ∧ (arcadeReset g s).2 = (g.screen s).map (fun (b : Nat) => (b : Rat) / 255) ∧ ∀ x ∈ (arcadeReset g s).2, 0 ≤ x ∧ x ≤ 1 :=
  ⟨rfl, rfl, normalize_range _ (hg _)⟩

example : (arcadeReset falling 2).2 = [1] := by decide +kernel

/-- The documented arguments `loss_of_life_termination` and `loss_of_life_reward` are rejected. -/
theorem name_violation : arcadeCall ["level", "loss_of_life_termination"] = .error .type_ ∧ arcadeCall ["level", "loss_of_life_reward"] = .error .type_ ∧
    arcadeCall ["level"] = .ok () := by decide +kernel

/-- A positive reward on loss of life has no effect. -/
theorem positive_violation : (arcadeRun ⟨false, -5⟩ falling (arcadeReset falling 2).1 [0]).toOption.map (fun r => r.2.map (fun o => o.reward)) = some [10] ∧
    (documented falling false 5 (2, 10, 1)).reward = 15 := by decide +kernel

/-- Together with termination a punishment has no effect. -/
theorem both_violation : (arcadeRun ⟨true, 5⟩ falling (arcadeReset falling 2).1 [0]).toOption.map (fun r => r.2.map (fun o => o.reward)) = some [10] ∧
    (documented falling true (-5) (2, 10, 1)).reward = 5 := by decide +kernel

/-- The loss of a life gained before is not noticed. -/
theorem gained_violation : (arcadeRun ⟨true, 0⟩ bonus (arcadeReset bonus 0).1 [0, 0]).toOption.map (fun r => r.2.map (fun o => o.terminal)) = some [false, false] ∧
    (documented bonus true 0 (1, 1, 2)).terminal = true := by decide +kernel

end Verif.Props.Arcade
