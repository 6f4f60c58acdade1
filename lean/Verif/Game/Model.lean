import Mathlib.Algebra.Order.Field.Rat

/-!
# Model of the adapters of game simulators

Models the adapters of the Arcade Learning Environment (`tensorforce/environments/arcade_learning_environment.py` 21-117), of ViZDoom
(`vizdoom.py` 24-145), of the PyGame Learning Environment (`pygame_learning_environment.py` 25-129), and of OpenSim (`open_sim.py` 19-66).

Simplifications:
* The simulators are arbitrary: a type of states and functions on it, one structure for each of the libraries.
* Rewards are rational numbers. Screens are flat lists of bytes.
* `make_action` of ViZDoom advances by the given number of frames, stops at the end of the episode, and returns the sum of the rewards of
  the frames (its documented behaviour).
* Configuration of windows, seeds and drivers, and reading of game files, are left out.
-/

namespace Verif.Game

inductive Err where
  /-- AttributeError -/
  | attribute
  /-- TypeError -/
  | type_
  /-- IndexError -/
  | index
  /-- KeyError -/
  | key
  /-- `TensorforceError.unexpected` -/
  | unexpected
  deriving Repr, DecidableEq

/-- `l[i]` for a list or tuple; negative indices count from the end. -/
def item {α : Type} (l : List α) (i : Int) : Except Err α :=
  if 0 ≤ i then
    match l[i.toNat]? with
    | some x => .ok x
    | none => .error .index
  else if -(l.length : Int) ≤ i then
    match l[(i + l.length).toNat]? with
    | some x => .ok x
    | none => .error .index
  else .error .index

/-- `screen.astype(dtype=np.float32) / 255.0` -/
def normalize (screen : List Nat) : List Rat := screen.map (fun (b : Nat) => (b : Rat) / 255)

/-- What `execute` returns. -/
structure Out (ω : Type) where
  states : ω
  terminal : Bool
  reward : Rat

/-- Calling a constructor with these keyword arguments. -/
def call (required optional_ given : List String) : Except Err Unit :=
  if ¬ given.all (fun k => required.contains k || optional_.contains k) then .error .type_
  else if ¬ required.all (fun k => given.contains k) then .error .type_
  else .ok ()

section Arcade

/-- The emulator: its legal actions, acting with the reward, whether the game is over, the number of lives, the screen. -/
structure Console (σ α : Type) where
  legal : List α
  act : σ → α → σ × Rat
  over : σ → Bool
  lives : σ → Int
  screen : σ → List Nat

structure Arcade where
  terminal : Bool
  punishment : Rat

/-- The signature of the constructor, lines 48-51 of arcade_learning_environment.py. -/
def arcadeCall (given : List String) : Except Err Unit :=
  call ["level"] ["life_loss_terminal", "life_loss_punishment", "repeat_action_probability", "visualize", "frame_skip", "seed"] given

variable {σ α : Type}

/-- `actions` (lines 84-85): the number of values. -/
def arcadeActions (g : Console σ α) : Nat := g.legal.length

/-- The state of the adapter after `reset` (lines 97-102): the state of the emulator, and `self.lives`. -/
def arcadeReset (g : Console σ α) (fresh : σ) : (σ × Int) × List Rat := ((fresh, g.lives fresh), normalize (g.screen fresh))

/-- `execute` (lines 106-117), after acting. -/
def arcadeAfter (c : Arcade) (g : Console σ α) (lives : Int) (s : σ) (reward : Rat) : (σ × Int) × Out (List Rat) :=
  if g.lives s < lives then
    if c.terminal then ((s, g.lives s), ⟨normalize (g.screen s), true, reward⟩)
    else if 0 < c.punishment then ((s, g.lives s), ⟨normalize (g.screen s), g.over s, reward - c.punishment⟩)
    else ((s, g.lives s), ⟨normalize (g.screen s), g.over s, reward⟩)
  else ((s, lives), ⟨normalize (g.screen s), g.over s, reward⟩)

/-- `execute` (lines 104-117). -/
def arcadeExecute (c : Arcade) (g : Console σ α) (state : σ × Int) (action : Int) : Except Err ((σ × Int) × Out (List Rat)) :=
  match item g.legal action with
  | .error e => .error e
  | .ok a => .ok (arcadeAfter c g state.2 (g.act state.1 a).1 (g.act state.1 a).2)

/-- A number of calls of `execute`. -/
def arcadeRun (c : Arcade) (g : Console σ α) : σ × Int → List Int → Except Err ((σ × Int) × List (Out (List Rat)))
  | state, [] => .ok (state, [])
  | state, a :: l =>
    match arcadeExecute c g state a with
    | .error e => .error e
    | .ok r =>
      match arcadeRun c g r.1 l with
      | .error e => .error e
      | .ok q => .ok (q.1, r.2 :: q.2)

end Arcade

section Doom

/-- The game: advancing by a frame with the buttons pressed, the reward of the last frame, whether the episode is finished, the screen
and the game variables. -/
structure Doom (σ : Type) where
  buttons : Nat
  step : σ → List Nat → σ
  reward : σ → Rat
  finished : σ → Bool
  screen : σ → List Nat
  gameVariables : σ → List Rat

/-- `itertools.product([0, 1], repeat=n)` -/
def product : Nat → List (List Nat)
  | 0 => [[]]
  | n + 1 => (product n).map (fun l => 0 :: l) ++ (product n).map (fun l => 1 :: l)

structure DoomConfig where
  factored : Bool
  visualize : Bool
  frames : Nat
  includeVariables : Bool

/-- An action: a number, or factored. -/
inductive DoomAction where
  | number (k : Int)
  | factored (pressed : List Bool)

variable {σ : Type}

/-- `actions` (lines 106-110): the number of values, or the number of buttons. -/
def doomActions (c : DoomConfig) (g : Doom σ) : Nat := if c.factored then g.buttons else (product g.buttons).length

/-- Lines 130-133 of vizdoom.py. -/
def doomButtons (c : DoomConfig) (g : Doom σ) (a : DoomAction) : Except Err (List Nat) :=
  match a with
  | .factored pressed => if c.factored then .ok (pressed.map (fun b => if b then 1 else 0)) else .error .type_
  | .number k => if c.factored then .ok [if k ≠ 0 then 1 else 0] else item (product g.buttons) k

/-- Lines 134-139: each frame is advanced. -/
def advance (g : Doom σ) (buttons : List Nat) : Nat → σ → Rat → σ × Rat
  | 0, s, reward => (s, reward)
  | n + 1, s, reward => advance g buttons n (g.step s buttons) (reward + g.reward (g.step s buttons))

/-- `make_action` of the library. -/
def makeAction (g : Doom σ) (buttons : List Nat) : Nat → σ → σ × Rat
  | 0, s => (s, 0)
  | n + 1, s =>
    if g.finished s then (s, 0)
    else ((makeAction g buttons n (g.step s buttons)).1, g.reward (g.step s buttons) + (makeAction g buttons n (g.step s buttons)).2)

/-- `get_states` (lines 116-122): the screen and the variables. -/
def doomStates (c : DoomConfig) (g : Doom σ) (s : σ) : List Rat × List Rat :=
  (normalize (g.screen s), if c.includeVariables then g.gameVariables s else [])

/-- `execute` (lines 129-145), with `self.current_states`. -/
def doomExecute (c : DoomConfig) (g : Doom σ) (state : σ × (List Rat × List Rat)) (a : DoomAction) :
    Except Err ((σ × (List Rat × List Rat)) × Out (List Rat × List Rat)) :=
  match doomButtons c g a with
  | .error e => .error e
  | .ok buttons =>
    let r := if c.visualize then advance g buttons c.frames state.1 0 else makeAction g buttons c.frames state.1
    let current := if g.finished r.1 then state.2 else doomStates c g r.1
    .ok ((r.1, current), ⟨current, g.finished r.1, r.2⟩)

end Doom

section PyGame

/-- The game: actions, acting, whether it is over, dimensions and contents of the screen, and of the game state if there is any. -/
structure PyGame (σ α : Type) where
  actions : List α
  act : σ → α → σ × Rat
  over : σ → Bool
  screenDims : List Nat
  screen : σ → List Nat
  gameDims : Option (List Nat)
  gameState : σ → List Rat

variable {σ α : Type}

/-- `states` (lines 92-104 of pygame_learning_environment.py): the shapes of screen and game state. `tuple(self.environment.getGameStateDims)`
is the tuple of a method. -/
def pygameStates (g : PyGame σ α) : Except Err (List Nat × Option (List Nat)) :=
  match g.gameDims with
  | some _ => .error .type_
  | none => .ok (g.screenDims ++ [3], none)

/-- `get_states` (lines 112-117). -/
def pygameGet (g : PyGame σ α) (s : σ) : List Rat × Option (List Rat) :=
  match g.gameDims with
  | some _ => (normalize (g.screen s), some (g.gameState s))
  | none => (normalize (g.screen s), none)

/-- `execute` (lines 123-129). -/
def pygameExecute (g : PyGame σ α) (s : σ) (action : Int) : Except Err (σ × Out (List Rat × Option (List Rat))) :=
  if g.over s then .error .unexpected
  else match item g.actions action with
    | .error e => .error e
    | .ok a => .ok ((g.act s a).1, ⟨pygameGet g (g.act s a).1, g.over (g.act s a).1, (g.act s a).2⟩)

end PyGame

section OpenSim

/-- `environments[level]`, lines 44-46 of open_sim.py. -/
def simLevel (level : String) : Except Err String :=
  if ["Arm2D", "L2M2019", "LegacyArm", "LegacyRun"].contains level then .ok level else .error .key

/-- The attributes of the adapter: those of the base class (environment.py 249-256) and line 46. -/
def simAttributes : List String := ["create", "_expect_receive", "_actions", "_num_parallel", "_reset_output_check", "_execute_output_check", "environment"]

/-- `self.name` -/
def attr (name : String) : Except Err Unit := if simAttributes.contains name then .ok () else .error .attribute

variable {σ : Type}

/-- `execute` (lines 64-66): `self.env.step`. -/
def simExecute (step : σ → List Rat → σ × List Rat × Rat × Bool) (s : σ) (a : List Rat) : Except Err (σ × Out (List Rat)) :=
  match attr "env" with
  | .error e => .error e
  | .ok _ => .ok ((step s a).1, ⟨(step s a).2.1, (step s a).2.2.2, (step s a).2.2.1⟩)

end OpenSim

end Verif.Game
