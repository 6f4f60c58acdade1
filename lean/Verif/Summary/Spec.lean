import Verif.Summary.Model

/-! # Sequences of summaries and of tracked values -/

namespace Verif.Summary

variable {ν : Type}

/-- A call of `summary`. -/
structure Call (ν : Type) where
  label : String
  name : Name
  values : List ν
  step : String
  counters : Counters

/-- One after the other: what is written by each. -/
def runCalls (enabled : Labels) : List (Call ν) → Module ν → Except SError (Module ν × List (List (Entry ν)))
  | [], m => .ok (m, [])
  | c :: cs, m =>
    match summary enabled c.counters c.label c.name c.values c.step m with
    | .error e => .error e
    | .ok r =>
      match runCalls enabled cs r.1 with
      | .error e => .error e
      | .ok rs => .ok (rs.1, r.2 :: rs.2)

/-- The value of the counter which the call refers to. -/
def Call.unit (c : Call ν) : Int :=
  if c.step = "timesteps" then c.counters.timesteps
  else if c.step = "episodes" then c.counters.episodes
  else c.counters.updates

/-- Each name with its value at this step. -/
def Call.entries (c : Call ν) : List (Entry ν) := List.zipWith (fun tag v => ⟨tag, c.unit, v⟩) (c.name.head :: c.name.rest) c.values

/-- A call before position `i` of the same summary. -/
def Earlier (enabled : Labels) (cs : List (Call ν)) (i : Nat) (c d : Call ν) : Prop :=
  ∃ j, j < i ∧ cs[j]? = some d ∧ d.name.head = c.name.head ∧ enabled.has d.label = true

/-- Values tracked one after the other, with label and name. -/
def runTracks (enabled : Labels) : List (String × String × ν) → Module ν → Except SError (Module ν)
  | [], m => .ok m
  | t :: ts, m =>
    match track enabled t.1 t.2.1 t.2.2 m with
    | .error e => .error e
    | .ok m => runTracks enabled ts m

/-- The last of them under this name, if it is among those asked for. -/
def lastTracked (enabled : Labels) (ts : List (String × String × ν)) (name : String) : Option ν :=
  (ts.filter fun t => enabled.has t.1 && t.2.1 = name).getLast?.map fun t => t.2.2

end Verif.Summary
