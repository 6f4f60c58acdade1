/-!
# Model of subsampling

Models `SubsamplingStep.step`, `tensorforce/core/optimizers/subsampling_step.py` 53-94. The arguments are the states (any number of
entries, here one list with one element per stored state), the horizon table, and all other arguments (one list with one element per
timestep). Indexing out of range raises, here `none`. The random indices are a parameter.
-/

namespace Verif.Optim.Subsample

variable {S X : Type}

structure Batch (S X : Type) where
  states : List S
  horizons : List (Nat × Nat)   -- start and length of the window of each timestep
  others : List X

/-- `tf.gather`. -/
def gather {α : Type} (xs : List α) : List Nat → Option (List α)
  | [] => some []
  | i :: is => match xs[i]?, gather xs is with
    | some x, some ys => some (x :: ys)
    | _, _ => none

/-- `tf.ragged.range(starts, limits).values`, line 79. -/
def ranges : List (Nat × Nat) → List Nat
  | [] => []
  | h :: hs => List.range' h.1 h.2 ++ ranges hs

/-- `tf.math.cumsum(exclusive=True)` from an offset, line 82. -/
def cumsum : Nat → List Nat → List Nat
  | _, [] => []
  | a, l :: ls => a :: cumsum (a + l) ls

/-- Lines 70-87. -/
def subsample (b : Batch S X) (indices : List Nat) : Option (Batch S X) :=
  match gather b.horizons indices with
  | none => none
  | some hs =>
    match gather b.states (ranges hs), gather b.others indices with
    | some ss, some xs => some ⟨ss, List.zip (cumsum 0 (hs.map (·.2))) (hs.map (·.2)), xs⟩
    | _, _ => none

/-- `fraction`: an absolute number or a relative one. -/
inductive Fraction where
  | absolute (k : Nat)
  | relative (q : Rat)

/-- Lines 58-67: number of timesteps. -/
def size (batch : Nat) : Fraction → Int
  | .absolute k => k
  | .relative q => max (q * (batch : Rat)).floor 1

/-- Lines 55-56 and 94: the arguments the inner optimizer receives; `draw` gives that many random indices. -/
def arguments (fraction : Fraction) (constantOne : Bool) (draw : Nat → List Nat) (b : Batch S X) : Option (Batch S X) :=
  if constantOne then some b
  else if size b.others.length fraction < b.others.length then subsample b (draw (size b.others.length fraction).toNat) else some b

/-! ## What it should do -/

/-- The states timestep `k` sees. -/
def window (b : Batch S X) (k : Nat) : Option (List S) := (b.horizons[k]?).map fun h => (b.states.drop h.1).take h.2

/-- Every timestep has its window inside the batch. -/
def Valid (b : Batch S X) : Prop :=
  b.horizons.length = b.others.length ∧ ∀ h ∈ b.horizons, h.1 + h.2 ≤ b.states.length

end Verif.Optim.Subsample
