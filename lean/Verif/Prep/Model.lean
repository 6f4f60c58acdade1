/-!
# Model of the stateful preprocessing layers

Models `tensorforce/core/layers/preprocessing.py`, `Deltafier` (117-205) and `Sequence` (273-417), reached through
`Preprocessor.apply` and `reset` (`core/networks/preprocessor.py` 104-163), and where `core/models/tensorforce.py` calls them:
`core_act` (1107-1112, also for independent act), end of an episode in `core_observe` (1537-1541), and not in `reset` (928-941).

Simplifications: one preprocessing layer; a tensor is the list of its slices along the layer's axis, all other axes being treated
alike; numbers are exact rationals; assertions are switched on (the default), a failing one is `none` and changes nothing.
-/

namespace Verif.Prep

/-- What a preprocessing layer does with a batch of inputs. -/
structure Layer (σ obs out : Type) where
  init : σ
  apply : σ → List obs → Option (σ × List out)
  reset : σ → σ

/-! ## Sequence -/

structure SeqState (α : Type) where
  hasPrevious : Bool
  previous : List α

variable {α : Type}

/-- Lines 372-414 for one input: `current` is the list of its slices along the axis, one slice if `concatenate` is off (379-380,
390-391); the width `w` of an input is 1 in that case (398-407). -/
def seqOne (len w : Nat) (st : SeqState α) (current : List α) : SeqState α × List α :=
  let xs := if st.hasPrevious then st.previous ++ current else (List.replicate len current).flatten
  (⟨true, (xs.drop w).take (w * (len - 1))⟩, xs)

/-- `Sequence`, lines 341-417; `fill` is the slice of zeros the variable starts with (336-339). -/
def sequence (len w : Nat) (fill : α) : Layer (SeqState α) (List α) (List α) where
  init := ⟨false, List.replicate (w * (len - 1)) fill⟩
  apply st x :=
    if 1 < x.length then none                                             -- lines 351-355
    else match x with
      | [] => some (st, [])                                               -- lines 359-368
      | x :: _ => let r := seqOne len w st x; some (r.1, [r.2])
  reset st := { st with hasPrevious := false }                            -- lines 341-346

/-! ## Deltafier -/

structure DeltaState where
  hasPrevious : Bool
  previous : List Rat

def minus (x y : List Rat) : List Rat := List.zipWith (· - ·) x y

/-- `Deltafier`, lines 165-205; the result is appended to the input if `concatenate` is given. -/
def deltafier (concatenate : Bool) (w : Nat) : Layer DeltaState (List Rat) (List Rat) where
  init := ⟨false, List.replicate w 0⟩
  apply st x :=
    if 1 < x.length then none                                             -- lines 174-179
    else
      let extended := st.previous :: x                                    -- line 182
      let first := (x.take 1).map (fun r => r.map fun _ => 0) ++ List.zipWith minus (x.drop 1) x.dropLast   -- line 189
      let later := List.zipWith minus x extended.dropLast                 -- line 192
      let pred := st.hasPrevious || x.isEmpty                             -- lines 195-196
      let delta := if pred then later else first                          -- line 197
      let st := ⟨st.hasPrevious || !pred, extended.getLastD []⟩           -- lines 185-187, 199
      some (st, if concatenate then List.zipWith (· ++ ·) x delta else delta)
  reset st := { st with hasPrevious := false }                            -- lines 165-170

/-! ## Calls -/

/-- `act` with one observation per given interaction, independent act, the observation that ends an episode of an interaction,
and `Agent.reset`. -/
inductive Event (obs : Type) where
  | act (batch : List (Nat × obs))
  | independent (batch : List obs)
  | terminal (p : Nat)
  | reset

variable {σ obs out : Type}

/-- One call: new state and the preprocessed states, `none` if it fails. Other observations do not reach the layer. -/
def Layer.step (l : Layer σ obs out) (st : σ) : Event obs → σ × Option (List out)
  | .act batch => match l.apply st (batch.map (·.2)) with | some (st, ys) => (st, some ys) | none => (st, none)
  | .independent batch => match l.apply st batch with | some (st, ys) => (st, some ys) | none => (st, none)
  | .terminal _ => (l.reset st, some [])
  | .reset => (st, some [])

def Layer.run (l : Layer σ obs out) (h : List (Event obs)) : σ := h.foldl (fun st e => (l.step st e).1) l.init

/-- Result of the last call of a history. -/
def Layer.result (l : Layer σ obs out) (h : List (Event obs)) (e : Event obs) : Option (List out) := (l.step (l.run h) e).2

end Verif.Prep
