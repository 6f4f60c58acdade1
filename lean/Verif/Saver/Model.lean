/-!
# Model of the saver

Models the configuration of the saver (`tensorforce/core/models/model.py` 143-160 and 298-322), the checkpoint at the beginning (331-335),
periodic saving (`Model.save` without arguments, 785-794, as called at the end of each call of the agent, `tensorforce/agents/agent.py` 351,
497 and 565, and by `Model.close`, model.py 215-217), restoring (`Model.restore`, model.py 915-930), and the part of `Agent.load` which
decides what is restored (`agent.py` 157-212).

Simplifications:
* `tf.train.CheckpointManager` (TensorFlow 2) is modelled from its source: `save` with its interval, the record of the listed checkpoints,
  and the deletion of old ones. Its record in the directory is the one in memory.
* A directory is its checkpoint files with their contents (the state of the agent, of any type), and the record. Names of checkpoints are
  pairs of base name and number, as in `agent-10`. There are no files of other formats; for these see C40.
* Values are absent, booleans, integers or strings. Times are whole seconds.
-/

namespace Verif.Saver

inductive Err where
  /-- `TensorforceError.value` -/
  | value
  /-- `TensorforceError.required` -/
  | required
  /-- `TensorforceError.exists_not` -/
  | missing
  /-- KeyError -/
  | key
  /-- TypeError -/
  | type_
  /-- ValueError of the checkpoint manager -/
  | manager
  /-- AssertionError -/
  | assertion
  deriving Repr, DecidableEq

inductive Value where
  | none
  | bool (b : Bool)
  | int (z : Int)
  | str (s : String)
  deriving Repr, DecidableEq

abbrev Entries := List (String × Value)

/-- The argument `saver`. -/
inductive Given where
  | none
  | path (directory : String)
  | dict (entries : Entries)
  deriving Repr, DecidableEq

inductive Measure where
  | timesteps | episodes | updates
  deriving Repr, DecidableEq

/-- The arguments of the checkpoint manager, and whether to load. -/
structure Settings where
  directory : String
  filename : String
  load : Bool
  keep : Int
  measure : Measure
  interval : Int
  hours : Option Int
  deriving Repr, DecidableEq

/-- Lines 151-152. -/
def known : List String := ["directory", "filename", "frequency", "load", "max_checkpoints", "max_hour_frequency", "unit"]

/-- `isinstance(x, int)`, true for booleans too, and the number. -/
def Value.int? : Value → Option Int
  | .none => Option.none
  | .bool b => some (if b then 1 else 0)
  | .int z => some z
  | .str _ => Option.none

/-- `if x:` -/
def Value.truth : Value → Bool
  | .none => false
  | .bool b => b
  | .int z => z ≠ 0
  | .str s => s ≠ ""

/-- `d.get(key)` -/
def get (e : Entries) (key : String) : Value := (e.lookup key).getD .none

/-- A path as used by `os.path.join`. -/
def text : Value → Except Err String
  | .str s => .ok s
  | _ => .error .type_

/-- Lines 300-302. -/
def filename (name : String) (e : Entries) : Except Err String :=
  if get e "filename" = .none then .ok name else text (get e "filename")

/-- An attribute which has to be a number, with default. -/
def number (e : Entries) (key : String) (default_ : Int) : Except Err Int :=
  if get e key = .none then .ok default_
  else match (get e key).int? with
    | some z => .ok z
    | Option.none => .error .type_

/-- Lines 307-309, and `self.units[unit]` in line 319 (the dictionary is in lines 293-295). -/
def measure (e : Entries) : Except Err Measure :=
  if get e "unit" = .none then .ok .updates
  else if get e "unit" = .str "timesteps" then .ok .timesteps
  else if get e "unit" = .str "episodes" then .ok .episodes
  else if get e "unit" = .str "updates" then .ok .updates
  else .error .key

/-- Line 318; the manager takes `None` and `0` for none. -/
def hours (e : Entries) : Except Err (Option Int) :=
  if get e "max_hour_frequency" = .none then .ok Option.none
  else match (get e "max_hour_frequency").int? with
    | some z => .ok (if z = 0 then Option.none else some z)
    | Option.none => .error .type_

/-- Lines 298-322, for an accepted dictionary; the manager demands a positive number of checkpoints. -/
def prepare (name : String) (e : Entries) : Except Err Settings := do
  let directory ← text (get e "directory")
  let file ← filename name e
  let keep ← number e "max_checkpoints" 10
  let m ← measure e
  let interval ← number e "frequency" 10
  let h ← hours e
  if keep ≤ 0 then .error .manager
  else .ok ⟨directory, file, ((e.lookup "load").getD (.bool false)).truth, keep, m, interval, h⟩

/-- Lines 143-160. -/
def accept : Given → Except Err (Option Entries)
  | .none => .ok Option.none
  | .path d => .ok (some [("directory", .str d)])
  | .dict e =>
    if ¬ (e.map (·.1)).all (fun k => known.contains k) then .error .value
    else if (e.lookup "directory").isNone then .error .required
    else .ok (some e)

/-- Lines 143-160 and 298-322. -/
def configure (name : String) (g : Given) : Except Err (Option Settings) :=
  match accept g with
  | .error e => .error e
  | .ok Option.none => .ok Option.none
  | .ok (some e) =>
    match prepare name e with
    | .error e => .error e
    | .ok s => .ok (some s)

/-- The name of a checkpoint, `base-number`. -/
structure Name where
  base : String
  number : Nat
  deriving Repr, DecidableEq

section
variable {S : Type}

/-- A checkpoint directory: files and contents, and the manager's record: listed checkpoints with the times they were written, and the
time of the last checkpoint preserved. -/
structure Dir (S : Type) where
  files : List (Name × S)
  listed : List (Name × Int)
  preserved : Int

/-- The checkpoint file `checkpoint`: the one listed last. -/
def Dir.latest (d : Dir S) : Option Name := d.listed.getLast?.map (·.1)

/-- `_sweep` of the manager: the checkpoints listed at the end, those deleted, and the time of the last one preserved. -/
def sweep (keep : Int) (hours : Option Int) : List (Name × Int) → Int → List (Name × Int) × List Name × Int
  | [], last => ([], [], last)
  | (n, t) :: l, last =>
    if keep < (l.length : Int) + 1 then
      match hours with
      | Option.none => ((sweep keep hours l last).1, n :: (sweep keep hours l last).2.1, (sweep keep hours l last).2.2)
      | some h =>
        if last ≤ t - h * 3600 then sweep keep hours l t
        else ((sweep keep hours l last).1, n :: (sweep keep hours l last).2.1, (sweep keep hours l last).2.2)
    else ((n, t) :: l, [], last)

/-- Writing a checkpoint: the file, the list, and sweeping. -/
def write (s : Settings) (d : Dir S) (n : Name) (state : S) (now : Int) : Dir S :=
  let r := sweep s.keep s.hours (d.listed.filter (fun e => e.1 ≠ n) ++ [(n, now)]) d.preserved
  { files := (d.files.filter (fun e => e.1 ≠ n) ++ [(n, state)]).filter (fun e => ¬ r.2.1.contains e.1), listed := r.1, preserved := r.2.2 }

/-- A checkpoint manager: its directory, and the value of the counter at the last checkpoint it has written. -/
structure Manager (S : Type) where
  dir : Dir S
  last : Option Nat

/-- The counters and the state of the agent, and the time, when `save` is called. -/
structure Moment (S : Type) where
  timesteps : Nat
  episodes : Nat
  updates : Nat
  state : S
  now : Int

/-- `self.units[unit]` -/
def Moment.count (m : Moment S) : Measure → Nat
  | .timesteps => m.timesteps
  | .episodes => m.episodes
  | .updates => m.updates

/-- The test of the interval in the manager's `save`. -/
def due (s : Settings) (last : Option Nat) (step : Nat) : Bool :=
  match last with
  | Option.none => true
  | some l => ¬ ((step : Int) < l + s.interval)

/-- `Model.save` without arguments (lines 786-794): the checkpoint written, if any. -/
def save (s : Settings) (g : Manager S) (m : Moment S) : Manager S × Option Name :=
  if due s g.last (m.count s.measure) then
    (⟨write s g.dir ⟨s.filename, m.count s.measure⟩ m.state m.now, some (m.count s.measure)⟩, some ⟨s.filename, m.count s.measure⟩)
  else (g, Option.none)

/-- A number of calls, and the checkpoints written by each. -/
def run (s : Settings) : Manager S → List (Moment S) → Manager S × List (Option Name)
  | g, [] => (g, [])
  | g, m :: l => ((run s (save s g m).1 l).1, (save s g m).2 :: (run s (save s g m).1 l).2)

/-- Creating the manager; times in the future are corrected, and without record the time is set back by a second. -/
def manager (d : Dir S) (now : Int) : Manager S :=
  ⟨{ d with listed := d.listed.map (fun e => (e.1, min e.2 now)), preserved := if d.listed = [] then now - 1 else min d.preserved now }, Option.none⟩

/-- Line 926: `os.path.split(os.path.join(directory, name))[0] == directory`. -/
def splits (directory : String) : Bool :=
  directory.toList.getLast? ≠ some '/' || directory.toList.all (· = '/')

/-- `tf.train.latest_checkpoint`, and what it contains. -/
def newest (d : Dir S) : Except Err S :=
  match d.latest with
  | Option.none => .error .missing
  | some n =>
    match d.files.lookup n with
    | Option.none => .error .missing
    | some x => .ok x

/-- `Model.restore` without arguments (lines 916-927). -/
def restore (directory : String) (d : Dir S) : Except Err S :=
  match newest d with
  | .error e => .error e
  | .ok x => if splits directory then .ok x else .error .assertion

/-- All directories. -/
abbrev World (S : Type) := String → Dir S

def World.set (w : World S) (directory : String) (d : Dir S) : World S := fun k => if k = directory then d else w k

/-- An agent after its creation: its state, and the directories. -/
structure Agent (S : Type) where
  state : S
  world : World S
  settings : Option Settings
  last : Option Nat

/-- `Model.initialize`, lines 298-335, for an agent which begins with state `m`. -/
def initModel (name : String) (g : Given) (w : World S) (m : Moment S) : Except Err (Agent S) :=
  match configure name g with
  | .error e => .error e
  | .ok Option.none => .ok ⟨m.state, w, Option.none, Option.none⟩
  | .ok (some s) =>
    if s.load then
      match restore s.directory (manager (w s.directory) m.now).dir with
      | .error e => .error e
      | .ok x => .ok ⟨x, w, some s, Option.none⟩
    else .ok ⟨m.state, w.set s.directory (save s (manager (w s.directory) m.now) m).1.dir, some s, (save s (manager (w s.directory) m.now) m).1.last⟩

/-- `Agent.restore` (agent.py 629-729) without format: the named checkpoint if it exists, and the latest one otherwise. -/
def agentRestore (directory : String) (file : Option Name) (d : Dir S) : Except Err S :=
  match file.bind (fun n => d.files.lookup n) with
  | some x => .ok x
  | Option.none => restore directory d

/-- `d[key] = value` -/
def put (key : String) (v : Value) : Entries → Entries
  | [] => [(key, v)]
  | (k, x) :: l => if k = key then (k, v) :: l else (k, x) :: put key v l

/-- Lines 191-207 of agent.py: the saver passed on, and whether it restores the agent. `load` is an argument of the agent, which no
agent has. -/
def loadSaver : Given → Given × Bool
  | .dict e => (.dict (put "load" (.bool true) e), true)
  | g => (g, false)

/-- `Agent.load` (agent.py 157-212) of an agent with this saver, `m` is the state of a new agent. -/
def load (name : String) (g : Given) (directory : Option String) (file : Option Name) (w : World S) (m : Moment S) : Except Err (Agent S) :=
  match initModel name (loadSaver g).1 w m with
  | .error e => .error e
  | .ok a =>
    if (loadSaver g).2 then .ok a
    else
      match directory with
      | Option.none => .error .type_
      | some d =>
        match agentRestore d file (a.world d) with
        | .error e => .error e
        | .ok x => .ok { a with state := x }

end

end Verif.Saver
