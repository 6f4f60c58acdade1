import Verif.Returns.Model

/-!
# Model of the update schedule and of generalized advantage estimation

Models `tensorforce/core/models/tensorforce.py`: the periodic update in `core_observe` (lines 1594-1653), the initial
value of `last_update` (680-684), and the reverse scan of `core_update` (2375-2393); the counters of
`tensorforce/core/models/model.py` (`timesteps` in `act`, `episodes` at the end of `observe`, line 767).

Simplifications: frequency, start and horizons are constants (not decaying parameters); `core_update` itself is
outside; counters are unbounded.
-/

namespace Verif.Schedule

/-- Update unit, `tensorforce.py` lines 210-222. -/
inductive Unit' where
  | timesteps
  | episodes
  deriving DecidableEq, Repr

/-- Options of the schedule: `freq`, `start` (lines 227-251), `past` is the maximum of the policy's and baseline's past
horizon (1605-1608), `horizon = none` is `reward_horizon == 'episode'`, `bo = none` is `buffer_observe == 'episode'`. -/
structure Options where
  unit : Unit'
  freq : Nat
  start : Nat
  past : Nat
  horizon : Option Nat
  bo : Option Nat
  deriving DecidableEq, Repr

/-- Counters of the model and `last_update`. -/
structure State where
  timesteps : Nat
  episodes : Nat
  last : Int
  deriving DecidableEq, Repr

/-- Lines 680-684: `last_update` starts at `-update_frequency.max_value()`. -/
def State.init (o : Options) : State := { timesteps := 0, episodes := 0, last := -(o.freq : Int) }

/-- Effective start, lines 1600-1635. -/
def effStart (o : Options) (s : State) : Int :=
  match o.unit with
  | .timesteps =>
    let unit : Int := s.timesteps
    let start : Int := max (o.start : Int) ((o.freq : Int) + o.past)                 -- line 1610
    let start : Int := match o.horizon with
      | none => max start (if s.episodes > 0 then start else unit + 1)               -- lines 1611-1615
      | some h => if s.episodes > 0 then 0 else start + 2 * h                        -- lines 1616-1621
    match o.bo with
    | none => max start (if s.episodes > 0 then start else unit + 1)                 -- lines 1622-1626
    | some b => max start b                                                          -- lines 1627-1631
  | .episodes => max (o.start : Int) o.freq                                          -- line 1635

/-- `unit` after subtracting the start, lines 1609, 1637, 1639. -/
def unitValue (o : Options) (s : State) (isTerminal : Bool) : Int :=
  match o.unit with
  | .timesteps => (s.timesteps : Int) - effStart o s
  | .episodes => ((s.episodes : Int) + if isTerminal then 1 else 0) - effStart o s

/-- Lines 1639-1650: the new state and whether an update is performed. -/
def coreObserve (o : Options) (s : State) (isTerminal : Bool) : State × Bool :=
  let unit := unitValue o s isTerminal
  if unit ≥ s.last + o.freq then ({ s with last := unit }, true) else (s, false)

/-- A call into the model: `act` increments `timesteps` (by the number of parallel interactions, line 641 of
`model.py`), `observe` runs `core_observe` and then counts the episode. -/
inductive Call where
  | act (n : Nat)
  | observe (isTerminal : Bool)
  deriving DecidableEq, Repr

/-- One call; the result of `observe` is whether an update took place. -/
def step (o : Options) (s : State) : Call → State × Option Bool
  | .act n => ({ s with timesteps := s.timesteps + n }, none)
  | .observe t =>
    let r := coreObserve o s t
    ({ r.1 with episodes := r.1.episodes + if t then 1 else 0 }, some r.2)

/-- Update decisions of a history of calls. -/
def run (o : Options) (s : State) : List Call → List (Option Bool)
  | [] => []
  | c :: cs => (step o s c).2 :: run o (step o s c).1 cs

/-- `recursive_gae` and its reverse `tf.scan`, `tensorforce.py` lines 2383-2393. -/
def gae (γ l : Rat) (batch : List (Rat × Nat)) : List Rat :=
  Returns.scanRev (fun next (at' : Rat × Nat) =>
    at'.1 + γ * l * (if at'.2 = 0 then next else 0)) 0 batch

end Verif.Schedule
