import Verif.Schedule.Model
import Verif.Returns.Spec

/-! # Specification of the update schedule and of generalized advantages -/

namespace Verif.Schedule

/-- Decisions of an ideal episode schedule: an observe call triggers an update iff it ends episode number
`m`, `m + f`, `m + 2f`, ...; `n` counts the episodes finished so far. -/
def idealEpisodes (m f : Nat) : Nat → List Call → List (Option Bool)
  | _, [] => []
  | n, .act _ :: cs => none :: idealEpisodes m f n cs
  | n, .observe t :: cs =>
    some (t && decide (m ≤ n + 1) && decide ((n + 1 - m) % f = 0)) ::
      idealEpisodes m f (if t then n + 1 else n) cs

/-- State of the ideal timestep schedule: timesteps, finished episodes, timestep of the previous update. -/
structure Ideal where
  t : Nat
  e : Nat
  prev : Option Nat

/-- `f` timesteps have passed since the previous update, if any. -/
def due (f : Nat) (prev : Option Nat) (t : Nat) : Bool :=
  match prev with
  | none => true
  | some p => decide (p + f ≤ t)

/-- Ideal timestep schedule: update as soon as `ready` holds, the start `S` is reached and `f` timesteps have passed
since the previous update. -/
def idealTimesteps (S f : Nat) (ready : Nat → Bool) : Ideal → List Call → List (Option Bool)
  | _, [] => []
  | i, .act n :: cs => none :: idealTimesteps S f ready { i with t := i.t + n } cs
  | i, .observe t :: cs =>
    let up := ready i.e && decide (S ≤ i.t) && due f i.prev i.t
    some up :: idealTimesteps S f ready
      { t := i.t, e := if t then i.e + 1 else i.e, prev := if up then some i.t else i.prev } cs

/-- Advantages from a position up to the end of its own episode (terminal code not zero) or of the batch. -/
def ownEpisode : List (Rat × Nat) → List Rat
  | [] => []
  | (a, t) :: L => if t = 0 then a :: ownEpisode L else [a]

end Verif.Schedule
