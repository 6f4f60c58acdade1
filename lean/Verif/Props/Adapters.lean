import Verif.Game.Lemmas

/-!
# C135: adapters of the PyGame Learning Environment and of OpenSim

Their states can be asked for, and allowed actions executed.
-/

namespace Verif.Props.Adapters

open Verif.Game

variable {σ α : Type}

/-- A game without game state of three steps. -/
def catcher : PyGame Nat Char := ⟨['l', 'r'], fun s _ => (s + 1, 1), fun s => 3 ≤ s, [4, 5], fun _ => List.replicate 60 0, none, fun _ => []⟩

/-- The same game with game state. -/
def catcherState : PyGame Nat Char := { catcher with gameDims := some [7], gameState := fun _ => List.replicate 7 0 }

/-- For games without game state the shape of the screen is announced, and states with it alone are returned. Missing for the property: games
with game state, see `state_violation`. -/
theorem announced_partial (g : PyGame σ α) (hg : g.gameDims = none) (s : σ) :
    pygameStates g = .ok (g.screenDims ++ [3], none) ∧ pygameGet g s = ((g.screen s).map (fun (x : Nat) => (x : Rat) / 255), none) := by
  unfold pygameStates pygameGet
  rw [hg]
  exact ⟨rfl, rfl⟩

example : catcher.gameDims = none := rfl

/-- The states returned are the screen, and the game state of games which have one. -/
theorem returned (g : PyGame σ α) (s : σ) :
    (pygameGet g s).1 = (g.screen s).map (fun (x : Nat) => (x : Rat) / 255) ∧ (pygameGet g s).2 = if g.gameDims.isSome then some (g.gameState s) else none := by
  unfold pygameGet
  cases g.gameDims with
  | none => exact ⟨rfl, rfl⟩
  | some d => exact ⟨rfl, rfl⟩

example : (pygameGet catcherState 0).2 = some [0, 0, 0, 0, 0, 0, 0] := by decide +kernel

/-- The values of the screen are within the announced bounds. -/
theorem within_bounds (g : PyGame σ α) (hg : ∀ s, ∀ b ∈ g.screen s, b ≤ 255) (s : σ) : ∀ x ∈ (pygameGet g s).1, 0 ≤ x ∧ x ≤ 1 := by
  unfold pygameGet
  split
  · exact normalize_range _ (hg s)
  · exact normalize_range _ (hg s)

example : ∀ s, ∀ b ∈ catcher.screen s, b ≤ 255 := fun _ b hb => by
  have := List.eq_of_mem_replicate hb
  omega

/-- As long as the game is not over each allowed action is executed with the reward and the end of the game. -/
theorem executed (g : PyGame σ α) (s : σ) (hs : g.over s = false) (k : Int) (hk : Allowed g.actions.length k) :
    ∃ a ∈ g.actions, g.actions[k.toNat]? = some a ∧
      pygameExecute g s k = .ok ((g.act s a).1, ⟨pygameGet g (g.act s a).1, g.over (g.act s a).1, (g.act s a).2⟩) := by
  obtain ⟨n, rfl, a, ha, hi⟩ := item_allowed g.actions hk
  refine ⟨a, List.mem_of_getElem? ha, by simpa using ha, ?_⟩
  unfold pygameExecute
  rw [hs, hi]
  rfl

example : catcher.over 0 = false ∧ Allowed catcher.actions.length 1 := by decide +kernel

/-- After the game is over actions are refused. -/
theorem refused (g : PyGame σ α) (s : σ) (hs : g.over s = true) (k : Int) : pygameExecute g s k = .error .unexpected := by
  unfold pygameExecute
  rw [hs]
  rfl

example : catcher.over 3 = true := by decide +kernel

/-- The states of no game with game state can be asked for. -/
theorem state_violation (g : PyGame σ α) (d : List Nat) (hg : g.gameDims = some d) : pygameStates g = .error .type_ := by
  unfold pygameStates
  rw [hg]

example : catcherState.gameDims = some [7] := rfl

/-- No action can be executed in OpenSim. -/
theorem execute_violation (step : σ → List Rat → σ × List Rat × Rat × Bool) (s : σ) (a : List Rat) : simExecute step s a = .error .attribute := rfl

example : simExecute (fun (s : Nat) _ => (s, [], 0, false)) 0 [] = .error .attribute := by decide +kernel

/-- The levels of OpenSim which `levels` lists are accepted. -/
theorem levels_accepted (l : String) : simLevel l = .ok l ↔ l ∈ ["Arm2D", "L2M2019", "LegacyArm", "LegacyRun"] := by
  unfold simLevel
  constructor
  · intro h
    by_contra hn
    rw [if_neg (by simpa using hn)] at h
    cases h
  · intro h
    rw [if_pos (by simpa using h)]

example : simLevel "Arm2D" = .ok "Arm2D" := by decide +kernel

/-- Two of the three documented levels of OpenSim are rejected. -/
theorem level_violation : simLevel "L2Run" = .error .key ∧ simLevel "Prosthetics" = .error .key := by decide +kernel

end Verif.Props.Adapters
