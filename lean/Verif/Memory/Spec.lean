import Verif.Memory.Model

/-!
# Specification of the memory

A memory is a log: the list of all timesteps handed to it so far, oldest first, each with its terminal
code (0 = episode continues, 1 = terminal, 2 = abort). Everything the memory can answer is a function
of the last `cap` entries of that log. No index arithmetic occurs here.
-/

namespace Verif.Memory

/-- A timestep: the stored record and its terminal code. -/
abbrev Step (α : Type) := α × Nat

/-- Batches a memory of capacity `cap` is specified to accept: non-empty, at most `cap` long, and
an episode end may only be the last timestep. -/
def Acceptable {α : Type} (cap : Nat) (xs : List (Step α)) : Prop :=
  xs ≠ [] ∧ xs.length ≤ cap ∧ ∀ x ∈ xs.dropLast, x.2 = 0

instance {α : Type} (cap : Nat) (xs : List (Step α)) : Decidable (Acceptable cap xs) := by
  unfold Acceptable
  cases xs with
  | nil => exact isFalse (by simp)
  | cons x r => exact decidable_of_iff ((x :: r).length ≤ cap ∧ ∀ y ∈ (x :: r).dropLast, y.2 = 0) (by simp)

/-- Close an unfinished episode at the end of the log by an abort. -/
def closeLast {α : Type} (l : List (Step α)) : List (Step α) :=
  match l.getLast? with
  | none => l
  | some x => if x.2 = 0 then l.dropLast ++ [(x.1, 2)] else l

/-- Operations on a memory. -/
inductive Op (α : Type) where
  | enqueue (xs : List (Step α))
  | reset
  deriving Repr

/-- Abstract memory: the log, and whether the end of the log is still marked as the write head.
(The mark is lost if the previous `enqueue` was rejected; then `reset` does not close the unfinished episode.) -/
structure Log (α : Type) where
  items : List (Step α)
  marked : Bool

def Log.empty {α : Type} : Log α := { items := [], marked := true }

/-- Specified effect of an operation on the log. -/
def Log.step {α : Type} (cap : Nat) (s : Log α) : Op α → Log α
  | .enqueue xs =>
    if Acceptable cap xs then { items := s.items ++ xs, marked := true } else { s with marked := false }
  | .reset => if s.marked then { s with items := closeLast s.items } else s

def Log.run {α : Type} (cap : Nat) (ops : List (Op α)) : Log α := ops.foldl (Log.step cap) Log.empty

/-- The operations of the modelled memory; a rejected call leaves the state of `afterEnqueue`. -/
def Queue.step {α : Type} (q : Queue α) : Op α → Queue α
  | .enqueue xs => q.afterEnqueue xs
  | .reset => match q.reset with | .ok q' => q' | .error _ => q

def Queue.run {α : Type} (cap : Nat) (z : α) (ops : List (Op α)) : Queue α :=
  ops.foldl Queue.step (Queue.init cap z)

/-- Terminal codes are 0, 1 or 2 (the terminal spec has `num_values=3`, `core/models/model.py`). -/
def CodesOk {α : Type} : Op α → Prop
  | .enqueue xs => ∀ x ∈ xs, x.2 ≤ 2
  | .reset => True

/-- The timesteps a memory of capacity `cap` can still hold: the last `cap` entries of the log. -/
def stored {α : Type} (cap : Nat) (items : List (Step α)) : List (Step α) :=
  items.drop (items.length - cap)

/-- Memory address of the `i`-th oldest stored timestep: its position in the log modulo the capacity. -/
def addr {α : Type} (cap : Nat) (items : List (Step α)) (i : Nat) : Nat :=
  (items.length - (stored cap items).length + i) % cap

/-- Positions of the episode ends in a list of timesteps, oldest first. -/
def endPositions {α : Type} (l : List (Step α)) : List Nat :=
  (List.range l.length).filter (fun i => match l[i]? with | some x => x.2 ≠ 0 | none => false)

/-- Split a log into its finished episodes (each ending with a nonzero terminal code) and the
timesteps of the unfinished episode at its end. -/
def splitEps {α : Type} : List (Step α) → List (List (Step α)) × List (Step α)
  | [] => ([], [])
  | x :: r =>
    let (es, u) := splitEps r
    if x.2 ≠ 0 then ([x] :: es, u) else
    match es with
    | [] => ([], x :: u)
    | e :: es' => ((x :: e) :: es', u)

/-- Finished episodes of a log, oldest first. -/
def episodes {α : Type} (items : List (Step α)) : List (List (Step α)) := (splitEps items).1

/-- Timesteps of the unfinished episode at the end of a log. -/
def unfinished {α : Type} (items : List (Step α)) : List (Step α) := (splitEps items).2

/-- From a list of episodes, newest first, those which fit into `budget` timesteps. -/
def fitNewest {β : Type} : Nat → List (List β) → List (List β)
  | _, [] => []
  | b, e :: r => if e.length ≤ b then e :: fitNewest (b - e.length) r else []

/-- The finished episodes lying entirely within the last `cap - 1` timesteps of the log, oldest first
(one slot short of the capacity: an episode counts as stored only while the end of its predecessor is
stored as well, or while nothing was overwritten yet). -/
def retrievable {α : Type} (cap : Nat) (items : List (Step α)) : List (List (Step α)) :=
  (fitNewest (cap - 1 - (unfinished items).length) (episodes items).reverse).reverse

/-- The last `n` elements. -/
def lastN {β : Type} (n : Nat) (l : List β) : List β := l.drop (l.length - n)

/-- Position `i` of a log together with its in-episode past of at most `h` timesteps: the longest run
of non-terminal timesteps immediately before it. -/
def lookback {α : Type} (h : Nat) (l : List (Step α)) (i : Nat) : List (Step α) :=
  (((l.take i).reverse.takeWhile (fun x => x.2 = 0)).take h).reverse ++ (l.drop i).take 1

/-- The first timestep of `l` together with at most `h` following ones of the same episode. -/
def lookaheadFrom {α : Type} : Nat → List (Step α) → List (Step α)
  | _, [] => []
  | 0, x :: _ => [x]
  | h + 1, x :: r => if x.2 = 0 then x :: lookaheadFrom h r else [x]

/-- Position `i` of a log together with its in-episode future of at most `h` timesteps. -/
def lookahead {α : Type} (h : Nat) (l : List (Step α)) (i : Nat) : List (Step α) :=
  lookaheadFrom h (l.drop i)

/-- The write head is marked, or the log ends with an episode end. -/
def Fenced {α : Type} (s : Log α) : Prop := s.marked = true ∨ ∀ x, s.items.getLast? = some x → x.2 ≠ 0

/-- An operation sequence in which no batch is rejected. -/
def AllAccepted {α : Type} (cap : Nat) (ops : List (Op α)) : Prop := ∀ xs, Op.enqueue xs ∈ ops → Acceptable cap xs

end Verif.Memory
