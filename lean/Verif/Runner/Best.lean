/-!
# Model of saving the best agent

Models the score of an evaluation (`tensorforce/execution/runner.py` 500-512) and the comparison after an evaluation episode (876-884).

Simplifications: arithmetic is exact; `none` is a score that is not a number, with which no comparison holds. What is saved is recorded as
the number of the evaluation after which it was saved.
-/

namespace Verif.Runner.Best

abbrev Score := Option Rat

/-- `a > b` of Python floats. -/
def gt : Score → Score → Bool
  | some a, some b => b < a
  | _, _ => false

structure State where
  evaluations : Nat
  best : Option Score          -- `best_evaluation_score`
  saved : Option Nat

def init : State := ⟨0, none, none⟩

/-- 876-884. -/
def step (s : State) (score : Score) : State :=
  match s.best with
  | none => { s with evaluations := s.evaluations + 1, best := some score }
  | some b =>
    if gt score b then ⟨s.evaluations + 1, some score, some s.evaluations⟩ else { s with evaluations := s.evaluations + 1 }

def run (scores : List Score) : State := scores.foldl step init

/-- Several calls of `Runner.run`: each begins with `best_evaluation_score = None`, 511. -/
def runs (scores : List (List Score)) : State := scores.foldl (fun s l => l.foldl step { s with best := none }) init

/-- `returns[-h:]`. -/
def lastOf (h : Nat) (returns : List Rat) : List Rat := if h = 0 then returns else returns.drop (returns.length - h)

/-- `mean_return_callback`, 503-508. -/
def score (h : Nat) (callback : Option Rat) (returns : List Rat) : Rat :=
  match callback with
  | none => (lastOf h returns).sum / (lastOf h returns).length
  | some r => r

end Verif.Runner.Best
