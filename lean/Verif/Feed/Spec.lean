import Verif.Feed.Model

/-!
# Feeding experience: what is expected

Independent of the model's functions except for its data types.
-/

namespace Verif.Feed

/-- Results can be compared. -/
instance {ε α : Type} [DecidableEq ε] [DecidableEq α] : DecidableEq (Except ε α)
  | .ok a, .ok b => if h : a = b then .isTrue (h ▸ rfl) else .isFalse (fun e => h (Except.ok.inj e))
  | .error a, .error b => if h : a = b then .isTrue (h ▸ rfl) else .isFalse (fun e => h (Except.error.inj e))
  | .ok _, .error _ => .isFalse nofun
  | .error _, .ok _ => .isFalse nofun

/-- Number of values of an array of a shape. -/
def count (shape : List Nat) : Nat := shape.foldr (· * ·) 1

/-- The number of values fits the shape. -/
def Proper (x : Nd) : Prop := x.data.length = count x.shape

/-- Row of an array. -/
def row (x : Nd) (i : Nat) : Nd :=
  ⟨x.shape.tail, (x.data.drop (i * count x.shape.tail)).take (count x.shape.tail)⟩

/-- An array has exactly the given rows. -/
def Represents (x : Nd) (rows : List Nd) : Prop :=
  Proper x ∧ x.shape.head? = some rows.length ∧ ∀ i (h : i < rows.length), row x i = rows[i]

/-- Value of a name in a dictionary. -/
def valueOf {κ α : Type} [DecidableEq κ] (k : κ) (d : List (κ × α)) : Option α :=
  (d.find? (fun e => e.1 = k)).map Prod.snd

/-- All later dictionaries have the names of the first, with arrays of the same shape. -/
def SameForm (d : Dict) (ds : List Dict) : Prop :=
  (d.map Prod.fst).Nodup ∧ (∀ e ∈ d, Proper e.2) ∧
  ∀ e ∈ d, ∀ d' ∈ ds, ∃ y, valueOf e.1 d' = some y ∧ y.shape = e.2.shape ∧ Proper y

/-- The arrays given by name have the steps as their rows. -/
def Columns (arrays : Dict) (d : Dict) (ds : List Dict) : Prop :=
  arrays.map Prod.fst = d.map Prod.fst ∧
  ∀ e ∈ d, ∀ x, (e.1, x) ∈ arrays → Represents x (e.2 :: ds.filterMap (valueOf e.1))

/-- The name under which the first state is found in a dictionary, and its specification. -/
def FirstState (spec : List (Key × Ent)) (name : String) (e : Ent) : Prop :=
  ∃ k r, spec = (k, e) :: r ∧ name = k.getD "state"

/-- Arrays of `n` rows matching a specification, name by name. -/
inductive Match (n : Nat) : List (Key × Ent) → Flat → Prop where
  | nil : Match n [] []
  | cons {k : Key} {e : Ent} {x : Nd} {r : List (Key × Ent)} {f : Flat} :
      x.shape = n :: e.shape → Proper x → (∀ v ∈ x.data, e.valid v = true) → Match n r f →
      Match n ((k, e) :: r) ((k, x) :: f)

/-- One unnamed value, or only named values. -/
def Names {α : Type} (l : List (Key × α)) : Prop :=
  (∃ e, l = [(none, e)]) ∨ (l ≠ [] ∧ (∀ p ∈ l, p.1 ≠ none) ∧ (l.map Prod.fst).Nodup)

/-- The specification consists of one unnamed value. -/
def Unnamed {α : Type} (l : List (Key × α)) : Prop := ∃ e, l = [(none, e)]

/-- An agent for which traces can be fed: no masks, no action called `action`,
a single unnamed state only with a single unnamed action, internal states only with a single unnamed state. -/
structure Sound (spec : Spec) : Prop where
  states : Names spec.states
  actions : Names spec.actions
  masks : ∀ e ∈ spec.actions, e.2.mask = none
  name : ∀ e ∈ spec.actions, e.1 ≠ some "action"
  both : Unnamed spec.states → Unnamed spec.actions
  internals : spec.internals = [] ∨ Unnamed spec.states
  initial : ∀ e ∈ spec.internals, Proper e.2
  distinct : (spec.internals.map Prod.fst).Nodup

/-- A trace of `n` time steps for an agent, consisting of whole episodes. -/
structure Fits (spec : Spec) (t : Trace) (n : Nat) : Prop where
  states : Match n spec.states t.states
  actions : Match n (spec.actions.map (fun e => (e.1, e.2.ent))) t.actions
  terminal : t.terminal.length = n
  reward : t.reward.length = n
  complete : ∃ l v, v ≠ 0 ∧ t.terminal = l ++ [v]
  masks : t.masks = []

/-- The arrays of a name in a list of batches. -/
def column (part : Batch → Flat) (k : Key) (fed : List Batch) : List Nd :=
  fed.filterMap (fun b => valueOf k (part b))

/-- The parts have the given numbers of rows of a shape, and together the given values in order. -/
def Glued (shape : List Nat) (data : List Rat) (lengths : List Nat) (parts : List Nd) : Prop :=
  parts.map Nd.shape = lengths.map (· :: shape) ∧ parts.flatMap Nd.data = data

/-- Every batch is one whole episode: only its last time step is terminal. -/
def Episodes (fed : List Batch) : Prop :=
  ∀ b ∈ fed, ∃ z v, v ≠ 0 ∧ b.terminal = List.replicate z 0 ++ [v]

/-- The batches contain the time steps of the traces, in order, each once. -/
structure Covers (spec : Spec) (fed : List Batch) (ts : List Trace) : Prop where
  episodes : Episodes fed
  terminal : fed.flatMap Batch.terminal = ts.flatMap Trace.terminal
  reward : fed.flatMap Batch.reward = ts.flatMap Trace.reward
  rewards : ∀ b ∈ fed, b.reward.length = b.terminal.length
  states : ∀ e ∈ spec.states, Glued e.2.shape (ts.flatMap (fun t => ((valueOf e.1 t.states).map Nd.data).getD []))
    (fed.map (fun b => b.terminal.length)) (column Batch.states e.1 fed)
  actions : ∀ e ∈ spec.actions, Glued e.2.ent.shape (ts.flatMap (fun t => ((valueOf e.1 t.actions).map Nd.data).getD []))
    (fed.map (fun b => b.terminal.length)) (column Batch.actions e.1 fed)
  internals : ∀ e ∈ spec.internals, ∀ b ∈ fed, ∃ x, valueOf (some e.1) b.internals = some x ∧
    Represents x (List.replicate b.terminal.length e.2)

/-- The named values. -/
def namedPart (f : Flat) : Dict := f.filterMap (fun e => e.1.map (fun k => (k, e.2)))

/-- States as an argument: a dictionary of arrays, or an array for a single unnamed state. -/
def statesForm : Flat → StatesIn
  | [(none, x)] => .array x
  | f => .dict (namedPart f)

/-- Actions as an argument. -/
def actionsForm : Flat → ActionsIn
  | [(none, x)] => .array x
  | f => .dict (namedPart f)

/-- A trace as arguments. -/
def argsOf (t : Trace) : Args := ⟨statesForm t.states, actionsForm t.actions, .many t.terminal, .many t.reward, .absent⟩

/-- Name under which the mask of an action is passed among the states. -/
def maskKey (k : Key) : String := k.getD "action" ++ "_mask"

/-- An agent, possibly with masks: no action called `action`, no state called like a mask. -/
structure Maskable (spec : Spec) : Prop where
  states : Names spec.states
  actions : Names spec.actions
  name : ∀ e ∈ spec.actions, e.1 ≠ some "action"
  clash : ∀ s ∈ spec.states, ∀ e ∈ spec.actions, e.2.mask ≠ none → s.1.getD "state" ≠ maskKey e.1
  initial : ∀ e ∈ spec.internals, Proper e.2
  distinct : (spec.internals.map Prod.fst).Nodup

/-- An agent whose states and masks can be told apart by their names. -/
structure Separable (spec : Spec) : Prop where
  states : Names spec.states
  actions : Names spec.actions
  clash : ∀ s ∈ spec.states, ∀ e ∈ spec.actions, e.2.mask ≠ none → s.1.getD "state" ≠ maskKey e.1
  distinct : (spec.internals.map Prod.fst).Nodup

/-- Masks for `n` time steps, for some of the masked actions. -/
def GivenMasks (spec : Spec) (n : Nat) (given : Flat) : Prop :=
  (given.map Prod.fst).Nodup ∧
  ∀ p ∈ given, ∃ e m, (p.1, e) ∈ spec.actions ∧ e.mask = some m ∧ p.2.shape = n :: (e.ent.shape ++ [m]) ∧ Proper p.2

/-- States and masks by name. -/
def dictOf (states given : Flat) : Dict :=
  states.map (fun e => (e.1.getD "state", e.2)) ++ given.map (fun e => (maskKey e.1, e.2))

/-- A trace and masks as arguments. -/
def argsWith (t : Trace) (given : Flat) : Args :=
  ⟨.dict (dictOf t.states given), actionsForm t.actions, .many t.terminal, .many t.reward, .absent⟩

/-- Arguments with masks and internal states. -/
def argsAll (t : Trace) (given : Flat) (internals : InternalsIn) : Args :=
  ⟨.dict (dictOf t.states given), actionsForm t.actions, .many t.terminal, .many t.reward, internals⟩

/-- The states are given as a single time step. -/
def GivenSingly (spec : List (Key × Ent)) : StatesIn → Prop
  | .array x => ∃ k e r, spec = (k, e) :: r ∧ x.shape = e.shape
  | .dict d => ∃ name e x, FirstState spec name e ∧ valueOf name d = some x ∧ x.shape = e.shape
  | _ => False

/-- Arrays with exactly the names of a specification, with rows of the shape and admissible values. -/
inductive Conforms : List (Key × Ent) → Flat → Prop where
  | nil : Conforms [] []
  | cons {k : Key} {e : Ent} {x : Nd} {r : List (Key × Ent)} {f : Flat} :
      x.shape.tail = e.shape → (∀ v ∈ x.data, e.valid v = true) → Conforms r f → Conforms ((k, e) :: r) ((k, x) :: f)

/-- Internal states for `n` time steps by name. -/
def GivenInternals (spec : Spec) (n : Nat) (given : Dict) : Prop :=
  (∀ p ∈ given, p.2.shape.head? = some n) ∧
  ∀ e ∈ spec.internals, ∃ x, valueOf e.1 given = some x ∧ x.shape = n :: e.2.shape ∧ Proper x

end Verif.Feed
