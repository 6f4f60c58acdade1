import Verif.Layer.Temporal

/-! # What a temporal layer should compute -/

namespace Verif.Layer

section
variable {X S O : Type}

/-- The inputs of a window. -/
def inputs (xs : List X) (w : Window) : List X := (xs.drop w.start).take w.len

/-- The last `min (h + 1) w.len` inputs of a window. -/
def needed (h : Nat) (xs : List X) (w : Window) : List X := (inputs xs w).drop (w.len - min (h + 1) w.len)

/-- Internals after applying the cell to the inputs in order. -/
def finalState (cell : Cell X S O) (s : S) : List X → S
  | [] => s
  | x :: xs => finalState cell (cell x s).2 xs

/-- Output of the cell for the last input, after applying it to the inputs in order. -/
def finalOutput (cell : Cell X S O) (s : S) : List X → Option O
  | [] => none
  | [x] => some (cell x s).1
  | x :: y :: xs => finalOutput cell (cell x s).2 (y :: xs)

/-- The windows are not empty and lie within the inputs. -/
def Inside (xs : List X) (ws : List Window) : Prop := ∀ w ∈ ws, 0 < w.len ∧ w.start + w.len ≤ xs.length

/-- The windows follow one another, as `Memory.predecessors` returns them. -/
def Contiguous (n : Nat) : Nat → List Window → Prop
  | pos, [] => pos = n
  | pos, w :: ws => w.start = pos ∧ 0 < w.len ∧ Contiguous n (pos + w.len) ws

instance (xs : List X) (ws : List Window) : Decidable (Inside xs ws) := inferInstanceAs (Decidable (∀ w ∈ ws, _ ∧ _))

end

end Verif.Layer
