import Verif.Game.Lemmas

/-!
# C134: actions and rewards of ViZDoom

Each combination of buttons is one action, and an action has the reward of its frames.
-/

namespace Verif.Props.Doom

open Verif.Game

variable {σ : Type}

/-- A game with two buttons which is finished after two frames, with reward 1 for the first and 5 for the second. -/
def short : Doom Nat := ⟨2, fun s _ => min (s + 1) 2, fun s => if s = 2 then 5 else s, fun s => s = 2, fun s => [s], fun _ => []⟩

/-- The number of actions is the number of combinations, or the number of buttons if factored. -/
theorem count (c : DoomConfig) (g : Doom σ) : doomActions c g = if c.factored then g.buttons else 2 ^ g.buttons := by
  unfold doomActions
  rw [product_length]

example : doomActions ⟨false, false, 12, false⟩ short = 4 := by decide +kernel

/-- Action `k` presses the buttons given by the binary digits of `k`, the first button is the highest digit. -/
theorem digits (c : DoomConfig) (hc : c.factored = false) (g : Doom σ) (k : Nat) (hk : k < doomActions c g) :
    doomButtons c g (.number k) = .ok ((List.range g.buttons).map (digit g.buttons k)) := by
  rw [count, hc] at hk
  simp only [Bool.false_eq_true, if_false] at hk
  unfold doomButtons
  simp only [hc, Bool.false_eq_true, if_false]
  exact item_nat _ _ (product_get _ _ hk)

example : doomButtons ⟨false, false, 12, false⟩ short (.number 2) = .ok [1, 0] := by decide +kernel

/-- A factored action presses exactly the buttons set. -/
theorem factored (c : DoomConfig) (hc : c.factored = true) (g : Doom σ) (pressed : List Bool) :
    doomButtons c g (.factored pressed) = .ok (pressed.map (fun b => if b then 1 else 0)) := by
  unfold doomButtons
  simp [hc]

example : doomButtons ⟨true, false, 12, false⟩ short (.factored [true, false]) = .ok [1, 0] := by decide +kernel

/-- Both representations have the same actions: each combination of buttons is exactly one number. -/
theorem bijective (c d : DoomConfig) (hc : c.factored = false) (hd : d.factored = true) (g : Doom σ) (pressed : List Bool)
    (hp : pressed.length = g.buttons) :
    ∃ k < doomActions c g, doomButtons c g (.number k) = doomButtons d g (.factored pressed) ∧
      ∀ j < doomActions c g, doomButtons c g (.number j) = doomButtons d g (.factored pressed) → j = k := by
  have hb : ∀ j : Nat, doomButtons c g (.number j) = item (product g.buttons) j := fun j => by unfold doomButtons; simp [hc]
  have hl : ofDigits pressed < (product g.buttons).length := by rw [product_length, ← hp]; exact ofDigits_lt pressed
  have he := product_ofDigits pressed
  rw [hp] at he
  have hn : doomActions c g = (product g.buttons).length := by unfold doomActions; simp [hc]
  refine ⟨ofDigits pressed, by omega, ?_, ?_⟩
  · rw [hb, item_nat _ _ he, factored d hd]
  · intro j hj h
    rw [hn] at hj
    rw [hb, item_nat _ _ (List.getElem?_eq_getElem hj), factored d hd] at h
    injection h with h
    have h1 : (product g.buttons)[j] = (product g.buttons)[ofDigits pressed] := by
      rw [List.getElem?_eq_getElem hl] at he
      rw [h]
      exact (Option.some.inj he).symm
    exact (List.getElem_inj (product_nodup _)).mp h1

example : [true, false].length = short.buttons := rfl

/-- An action has the sum of the rewards of the frames until the end of the episode; not visualized. -/
theorem reward (c : DoomConfig) (hv : c.visualize = false) (g : Doom σ) (state : σ × (List Rat × List Rat)) (a : DoomAction) (b : List Nat)
    (hb : doomButtons c g a = .ok b) :
    ∃ q o, doomExecute c g state a = .ok (q, o) ∧ q.1 = after g b state.1 (frames g b c.frames state.1).length ∧
      o.reward = ((frames g b c.frames state.1).map (fun k => g.reward (after g b state.1 (k + 1)))).sum ∧ o.terminal = g.finished q.1 := by
  unfold doomExecute
  rw [hb]
  simp only [hv, Bool.false_eq_true, if_false, makeAction_eq]
  exact ⟨_, _, rfl, rfl, rfl, rfl⟩

example : (doomExecute ⟨false, false, 12, false⟩ short (0, ([], [])) (.number 0)).toOption.map (fun r => (r.2.reward, r.2.terminal)) = some (6, true) := by decide +kernel

/-- Visualized, the same holds if the episode does not end before the last frame. Missing for the property: see `visualize_violation`. -/
theorem visualized_partial (c d : DoomConfig) (hc : c.visualize = true) (hd : d = { c with visualize := false }) (g : Doom σ) (state : σ × (List Rat × List Rat))
    (a : DoomAction) (b : List Nat) (hb : doomButtons c g a = .ok b) (h : ∀ k < c.frames, g.finished (after g b state.1 k) = false) :
    doomExecute c g state a = doomExecute d g state a := by
  subst hd
  have hb' : doomButtons { c with visualize := false } g a = .ok b := hb
  unfold doomExecute
  rw [hb, hb']
  simp only [hc, if_true, Bool.false_eq_true, if_false, makeAction_eq, advance_eq, frames_all g b c.frames state.1 h, List.length_range, zero_add]
  rfl

example : ∀ k < 2, short.finished (after short [0, 0] 0 k) = false := by decide +kernel

/-- While the episode lasts the states returned are those of the game, and after its end the last ones before. -/
theorem states (c : DoomConfig) (g : Doom σ) (state q : σ × (List Rat × List Rat)) (a : DoomAction) (o : Out (List Rat × List Rat))
    (h : doomExecute c g state a = .ok (q, o)) :
    o.states = q.2 ∧ o.terminal = g.finished q.1 ∧
      (o.terminal = false → o.states = ((g.screen q.1).map (fun (x : Nat) => (x : Rat) / 255), if c.includeVariables then g.gameVariables q.1 else [])) ∧
      (o.terminal = true → o.states = state.2) := by
  unfold doomExecute at h
  split at h
  · cases h
  · injection h with h
    obtain ⟨rfl, rfl⟩ := Prod.mk.inj h
    refine ⟨rfl, rfl, ?_, ?_⟩
    · intro e
      simp only at e ⊢
      rw [e]
      rfl
    · intro e
      simp only at e ⊢
      rw [e]
      rfl

example : (doomExecute ⟨false, false, 1, false⟩ short (0, ([], [])) (.number 0)).toOption.map (fun r => r.2.states) = some ([1 / 255], []) := by decide +kernel

/-- If an episode ends within an action the visualized adapter counts the last reward again for each frame left: in this game the first action
gives 1 + 5 if not visualized, and 1 + 11 * 5 if visualized, with the default number of 12 frames. -/
theorem visualize_violation : (doomExecute ⟨false, false, 12, false⟩ short (0, ([], [])) (.number 0)).toOption.map (fun r => r.2.reward) = some 6 ∧
    (doomExecute ⟨false, true, 12, false⟩ short (0, ([], [])) (.number 0)).toOption.map (fun r => r.2.reward) = some 56 := by decide +kernel

end Verif.Props.Doom
