import Verif.Saver.Model

/-!
# The saver: what is expected

Independent of the model's functions except for its data types.
-/

namespace Verif.Saver

/-- The documented attributes (`tensorforce/agents/tensorforce.py` 224-242). -/
def attributes : List String := ["directory", "filename", "frequency", "unit", "max_checkpoints", "max_hour_frequency"]

/-- The string for a unit. -/
inductive Unit_ : String → Measure → Prop where
  | timesteps : Unit_ "timesteps" .timesteps
  | episodes : Unit_ "episodes" .episodes
  | updates : Unit_ "updates" .updates

/-- A dictionary as documented, and what it says. -/
structure Documented (name : String) (e : Entries) (s : Settings) : Prop where
  keys : ∀ p ∈ e, p.1 ∈ attributes
  directory : e.lookup "directory" = some (.str s.directory)
  filename : e.lookup "filename" = none ∧ s.filename = name ∨ e.lookup "filename" = some (.str s.filename)
  frequency : e.lookup "frequency" = some (.int s.interval)
  frequent : 0 < s.interval
  measure : e.lookup "unit" = none ∧ s.measure = .updates ∨ ∃ u, e.lookup "unit" = some (.str u) ∧ Unit_ u s.measure
  keep : e.lookup "max_checkpoints" = none ∧ s.keep = 10 ∨ e.lookup "max_checkpoints" = some (.int s.keep) ∧ 0 < s.keep
  hours : e.lookup "max_hour_frequency" = none ∧ s.hours = none ∨
    ∃ h, e.lookup "max_hour_frequency" = some (.int h) ∧ 0 < h ∧ s.hours = some h
  load : s.load = false

section
variable {S : Type}

/-- The last `k` entries. -/
def newestOf {α : Type} (k : Nat) (l : List α) : List α := l.drop (l.length - k)

/-- One more checkpoint, which replaces one of the same name. -/
def overwrite (l : List (Name × S)) (x : Name × S) : List (Name × S) := l.filter (fun e => e.1 ≠ x.1) ++ [x]

/-- The checkpoints written by a number of calls, with the state when they were written. -/
def written (outs : List (Option Name)) (ms : List (Moment S)) : List (Name × S) :=
  (outs.zip ms).filterMap (fun p => p.1.map (fun n => (n, p.2.state)))

/-- The files are the checkpoints of the record. -/
structure Consistent (d : Dir S) : Prop where
  names : d.files.map (·.1) = d.listed.map (·.1)
  nodup : (d.files.map (·.1)).Nodup

end

instance {ε α : Type} [DecidableEq ε] [DecidableEq α] : DecidableEq (Except ε α)
  | .ok a, .ok b => if h : a = b then isTrue (by rw [h]) else isFalse (fun e => h (Except.ok.inj e))
  | .error a, .error b => if h : a = b then isTrue (by rw [h]) else isFalse (fun e => h (Except.error.inj e))
  | .ok _, .error _ => isFalse nofun
  | .error _, .ok _ => isFalse nofun

end Verif.Saver
