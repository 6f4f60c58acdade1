/-!
# Model of the runner loop

Models `Runner.run` and the `handle_*` methods, `tensorforce/execution/runner.py` 514-907, for one or several environments that are not
vectorized, with separate or batched agent calls, with or without synchronization, with or without an evaluation environment.

Simplifications: times and statistics are left out (`episode_timestep` is kept). The environments, the agent and the callback are
functions of everything that happened before (`Oracle`); `ready` says whether an environment answers in a loop iteration. The agent and
the environments do not raise. Waiting loops (561-571, 624-627) end. Infinity as a limit is `none`.
-/

namespace Verif.Runner

/-- What the runner does, with the index of the environment. -/
inductive Event where
  | reset (n : Nat)              -- `environment.start_reset`
  | act (n : Nat)                -- `agent.act`
  | evalAct (n : Nat)            -- `agent.act(independent=True)`
  | execute (n : Nat)            -- `environment.start_execute`
  | observe (n : Nat) (terminal : Int)
deriving DecidableEq

structure Config where
  envs : Nat
  evaluation : Bool              -- `evaluation_run`: the last environment is for evaluation
  batch : Bool                   -- `batch_agent_calls`
  syncTimesteps : Bool
  syncEpisodes : Bool
  numEpisodes : Option Nat
  numTimesteps : Option Nat
  numUpdates : Option Nat
  episodeFreq : Option Nat       -- callback frequencies
  timestepFreq : Option Nat

/-- The rest of the world, depending on all earlier events (latest first). -/
structure Oracle where
  ready : Nat → Nat → Bool                  -- iteration, environment
  code : List Event → Nat → Nat → Nat       -- terminal code of an environment, given also the timesteps of its episode
  updated : List Event → Nat                -- number of updates of an `observe` call
  callback : List Event → Bool

structure State where
  prev : Nat → Int               -- `prev_terminals`
  terms : Nat → Int              -- `terminals`
  pending : Nat → Bool           -- environment has a reset to answer, otherwise an execute
  steps : Nat → Nat              -- `episode_timestep`
  timesteps : Nat
  episodes : Nat
  updates : Nat
  terminate : Nat
  log : List Event

def set {α : Type} (f : Nat → α) (n : Nat) (a : α) : Nat → α := fun m => if m = n then a else f m

def reached (k : Nat) : Option Nat → Bool
  | none => false
  | some l => l ≤ k

/-- `k % frequency == 0`. -/
def hits (k : Nat) : Option Nat → Bool
  | none => false
  | some f => k % f = 0

def Config.train (c : Config) : Nat := c.envs - (if c.evaluation then 1 else 0)

/-- Whether `n` is the evaluation environment, 641. -/
def Config.isEval (c : Config) (n : Nat) : Bool := c.evaluation && n = c.envs - 1

/-- What `run` accepts, 312-335: with one environment neither batched calls nor synchronization. -/
def Config.Valid (c : Config) : Prop := 0 < c.envs ∧ (c.envs = 1 → c.batch = false ∧ c.syncTimesteps = false ∧ c.syncEpisodes = false)

instance (c : Config) : Decidable c.Valid := inferInstanceAs (Decidable (_ ∧ _))

variable (c : Config) (o : Oracle)

/-- 711-720 and 765-775. -/
def countTimestep (n : Nat) (s : State) : State :=
  let s := { s with timesteps := s.timesteps + 1 }
  if (hits (s.steps n) c.timestepFreq && !o.callback s.log) || reached s.timesteps c.numTimesteps then { s with terminate := 2 } else s

/-- `start_execute`. -/
def execute (n : Nat) (s : State) : State :=
  { s with log := .execute n :: s.log, pending := set s.pending n false, steps := set s.steps n (s.steps n + 1) }

/-- 699-720. -/
def handleAct (n : Nat) (s : State) : State :=
  let s := if c.batch then s else { s with log := .act n :: s.log }
  countTimestep c o n (execute n s)

/-- 750-775. -/
def handleActEval (n : Nat) (s : State) : State :=
  let s := if c.batch then s else { s with log := .evalAct n :: s.log }
  let s := execute n s
  if c.evaluation && c.envs = 1 then countTimestep c o n s else s

/-- 777-783. -/
def cutOff (n : Nat) (s : State) : State := if s.terms n = 0 ∧ s.terminate = 2 then { s with terms := set s.terms n 2 } else s

/-- 785-792. -/
def tell (n : Nat) (s : State) : State :=
  if c.batch then s else { s with updates := s.updates + o.updated s.log, log := .observe n (s.terms n) :: s.log }

/-- 777-796. -/
def handleObserve (n : Nat) (s : State) : State :=
  let s := tell c o n (cutOff n s)
  if reached s.updates c.numUpdates then { s with terminate := 2 } else s

/-- 840-845. -/
def countEpisode (s : State) : State :=
  let s := { s with episodes := s.episodes + 1 }
  if s.terminate = 0 ∧ ((hits s.episodes c.episodeFreq && !o.callback s.log) || reached s.episodes c.numEpisodes) then { s with terminate := 1 } else s

/-- `start_reset`. -/
def startReset (n : Nat) (s : State) : State := { s with log := .reset n :: s.log, pending := set s.pending n true }

/-- 853-856; the evaluation variant (903-907) sets the code 0 instead of -1. -/
def maybeReset (code : Int) (n : Nat) (s : State) : State :=
  if s.terminate = 0 ∧ c.syncEpisodes = false then { startReset n s with terms := set s.terms n code } else s

/-- 823-856. -/
def handleTerminal (n : Nat) (s : State) : State :=
  let s := countEpisode c o s
  maybeReset c (-1) n { s with steps := set s.steps n 0 }

/-- 858-907 without the evaluation callback. -/
def handleTerminalEval (n : Nat) (s : State) : State :=
  let s := if c.evaluation && c.envs = 1 then countEpisode c o s else s
  maybeReset c 0 n { s with steps := set s.steps n 0 }

/-- What `receive_execute` answers. -/
def reply (n : Nat) (s : State) : Int := if s.pending n then -1 else o.code s.log n (s.steps n)

/-- 640-667. -/
def handle (n : Nat) (s : State) : State :=
  if c.isEval n then
    if s.terms n = -1 then handleActEval c o n s
    else if s.terms n = 0 then handleActEval c o n s else handleTerminalEval c o n s
  else if s.terms n = -1 then handleAct c o n s
  else
    let s := handleObserve c o n s
    if s.terms n = 0 then handleAct c o n s else handleTerminal c o n s

/-- Body of the loop over environments, 613-667, in loop iteration `i`. -/
def visit (i : Nat) (s : State) (n : Nat) : State :=
  if s.prev n > 0 then { s with terms := set s.terms n (s.prev n) }
  else if c.batch then handle c o n s
  else if c.syncTimesteps || o.ready i n then handle c o n { s with terms := set s.terms n (reply o n s) }
  else { s with terms := set s.terms n (s.prev n) }

/-- 559-576. -/
def receiveAll (s : State) : State := { s with terms := fun n => if s.prev n ≤ 0 then reply o n s else s.prev n }

/-- 798-812. -/
def observeJoint (s : State) : State :=
  let ns := (List.range c.train).filter fun n => s.prev n ≤ 0 ∧ 0 ≤ s.terms n
  if ns = [] then s
  else { s with updates := s.updates + o.updated s.log, log := (ns.map fun n => Event.observe n (s.terms n)).reverse ++ s.log }

/-- 722-748. -/
def actJoint (s : State) : State :=
  let ns := (List.range c.train).filter fun n => s.terms n ≤ 0
  let s := { s with log := (ns.map Event.act).reverse ++ s.log }
  if c.evaluation = true ∧ s.terms (c.envs - 1) ≤ 0 then { s with log := .evalAct (c.envs - 1) :: s.log } else s

/-- 557-607. -/
def jointly (s : State) : State := if c.batch then actJoint c (observeJoint c o (receiveAll o s)) else s

/-- 676-681: which environments are reset once all episodes ended. -/
def toReset (s : State) : List Nat :=
  let left (k : Nat) := match c.numEpisodes with | none => k | some N => min k (N - s.episodes)
  List.range (left c.train) ++ (if c.evaluation && !reached s.episodes c.numEpisodes then [c.envs - 1] else [])

/-- 672-681. -/
def syncReset (s : State) : State :=
  if c.syncEpisodes = true ∧ ∀ n < c.envs, 0 < s.terms n then
    (toReset c s).foldl (fun s n => startReset n { s with prev := set s.prev n (-1) }) s
  else s

/-- One iteration, 554-697. -/
def iteration (i : Nat) (s : State) : State :=
  let s := (List.range c.envs).foldl (visit c o i) (jointly c o s)
  syncReset c { s with prev := s.terms }

/-- 514-543. -/
def init : State :=
  (List.range c.envs).foldl (fun s n => startReset n s) ⟨fun _ => -1, fun _ => -1, fun _ => false, fun _ => 0, 0, 0, 0, 0, []⟩

/-- The loop condition, 554. -/
def continues (s : State) : Prop := ∃ n, n < c.envs ∧ s.prev n ≤ 0

instance (s : State) : Decidable (continues c s) := inferInstanceAs (Decidable (∃ n, n < c.envs ∧ s.prev n ≤ 0))

/-- State after at most `k` iterations. -/
def run : Nat → State
  | 0 => init c
  | k + 1 => if continues c (run k) then iteration c o k (run k) else run k

end Verif.Runner
