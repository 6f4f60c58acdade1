import Verif.Game.Model

/-!
# What the adapters of game simulators are documented to do

Written from the documentation of the adapters (`arcade_learning_environment.py` 22-46, `vizdoom.py` 25-52, `open_sim.py` 20-31).
-/

namespace Verif.Game

deriving instance Repr for Out
deriving instance DecidableEq for Out

instance {α : Type} [DecidableEq α] : DecidableEq (Except Err α)
  | .ok a, .ok b => if h : a = b then .isTrue (by rw [h]) else .isFalse (fun e => h (by injection e))
  | .error a, .error b => if h : a = b then .isTrue (by rw [h]) else .isFalse (fun e => h (by injection e))
  | .ok _, .error _ => .isFalse (fun e => by injection e)
  | .error _, .ok _ => .isFalse (fun e => by injection e)

/-- An action which the specification allows. -/
def Allowed (n : Nat) (a : Int) : Prop := 0 ≤ a ∧ a < n

instance (n : Nat) (a : Int) : Decidable (Allowed n a) := inferInstanceAs (Decidable (0 ≤ a ∧ a < n))

section
variable {σ α : Type}

/-- What happens in the emulator if the actions of these numbers are taken: the states before and after, and the reward. -/
inductive Played (g : Console σ α) : σ → List Int → List (σ × Rat × σ) → σ → Prop
  | nil (s : σ) : Played g s [] [] s
  | cons {s t : σ} {k : Nat} {a : α} {ks : List Int} {l : List (σ × Rat × σ)} : g.legal[k]? = some a →
      Played g (g.act s a).1 ks l t → Played g s ((k : Int) :: ks) ((s, (g.act s a).2, (g.act s a).1) :: l) t

/-- The documented outcome of a step, `w` is the reward on loss of life. -/
def documented (g : Console σ α) (terminate : Bool) (w : Rat) (e : σ × Rat × σ) : Out (List Rat) where
  states := (g.screen e.2.2).map (fun (b : Nat) => (b : Rat) / 255)
  terminal := g.over e.2.2 || (terminate && decide (g.lives e.2.2 < g.lives e.1))
  reward := e.2.1 + if g.lives e.2.2 < g.lives e.1 then w else 0

/-- The number of steps in which a life was lost. -/
def losses (g : Console σ α) (l : List (σ × Rat × σ)) : Nat := l.countP (fun e => decide (g.lives e.2.2 < g.lives e.1))

/-- The outcome with respect to the lowest number of lives so far. -/
def records (g : Console σ α) (c : Arcade) : Int → List (σ × Rat × σ) → List (Out (List Rat))
  | _, [] => []
  | low, e :: l =>
    { states := (g.screen e.2.2).map (fun (b : Nat) => (b : Rat) / 255)
      terminal := g.over e.2.2 || (c.terminal && decide (g.lives e.2.2 < low))
      reward := e.2.1 - if g.lives e.2.2 < low ∧ c.terminal = false then max c.punishment 0 else 0 } :: records g c (min low (g.lives e.2.2)) l

end

/-- The state after a number of frames. -/
def after {σ : Type} (g : Doom σ) (buttons : List Nat) (s : σ) : Nat → σ
  | 0 => s
  | k + 1 => g.step (after g buttons s k) buttons

/-- Whether frame `k` is still played. -/
def Running {σ : Type} (g : Doom σ) (buttons : List Nat) (s : σ) (k : Nat) : Prop := ∀ j ≤ k, g.finished (after g buttons s j) = false

instance {σ : Type} (g : Doom σ) (buttons : List Nat) (s : σ) (k : Nat) : Decidable (Running g buttons s k) :=
  inferInstanceAs (Decidable (∀ j ≤ k, g.finished (after g buttons s j) = false))

/-- The frames played by an action. -/
def frames {σ : Type} (g : Doom σ) (buttons : List Nat) (n : Nat) (s : σ) : List Nat := (List.range n).filter (fun k => decide (Running g buttons s k))

/-- Digit `j` of `k`, written with `n` binary digits. -/
def digit (n k j : Nat) : Nat := k / 2 ^ (n - 1 - j) % 2

end Verif.Game
