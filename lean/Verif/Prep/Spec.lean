import Verif.Prep.Model

/-! # What the preprocessing layers should compute -/

namespace Verif.Prep

variable {α obs out : Type}

/-- The last `len` observations of an episode so far, the first one repeated where there are fewer: entry `k` is observation
number `t + k + 1 - len`, where a negative number counts as 0 and `t` is the number of the latest observation. -/
def lastStack (len : Nat) (os : List (List α)) : List α :=
  ((List.range len).map fun k => os.getD (os.length + k - len) []).flatten

/-- Difference of the latest observation to the one before, zero for the first. -/
def lastDelta (concatenate : Bool) (os : List (List Rat)) : List Rat :=
  let x := os.getLastD []
  let d := if os.length ≤ 1 then x.map fun _ => 0 else minus x (os.dropLast.getLastD [])
  if concatenate then x ++ d else d

/-- Observations of the episode an interaction is in. -/
def ownStep (p : Nat) (os : List obs) : Event obs → List obs
  | .act batch => if batch.length ≤ 1 then os ++ (batch.filter (·.1 = p)).map (·.2) else os
  | .independent _ => os
  | .terminal q => if q = p then [] else os
  | .reset => []

def own (p : Nat) (h : List (Event obs)) : List obs := h.foldl (ownStep p) []

/-- Observations since the last end of any episode, whoever made them: what the shared state of a layer depends on. -/
def streamStep (os : List obs) : Event obs → List obs
  | .act batch => if batch.length ≤ 1 then os ++ batch.map (·.2) else os
  | .independent batch => if batch.length ≤ 1 then os ++ batch else os
  | .terminal _ => []
  | .reset => os

def stream (h : List (Event obs)) : List obs := h.foldl streamStep []

/-- A call that does not disturb episodes: no other interaction is in an episode, an episode that ends has begun, the agent is reset
between episodes, and independent act is not used. -/
def calm (h : List (Event obs)) : Event obs → Prop
  | .act batch => ∀ b ∈ batch, ∀ q, q ≠ b.1 → own q h = []
  | .independent batch => batch = []
  | .terminal p => own p h ≠ []
  | .reset => ∀ q, own q h = []

/-- Every call of the history is calm. -/
def Calm (h : List (Event obs)) : Prop := ∀ h1 e h2, h = h1 ++ e :: h2 → calm h1 e

end Verif.Prep
