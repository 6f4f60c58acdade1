import Verif.Act.Model
import Verif.Feed.Spec

/-!
# `Agent.act`: what is expected

Independent of the model's functions except for its data types.
-/

namespace Verif.Act

open Verif.Feed

/-- Form of values: one time step, one value for each time step, or arrays over the time steps. -/
inductive Form where
  | single
  | rows
  | columns
  deriving DecidableEq

/-- States of `n` time steps and masks for some of the actions, given in a form. -/
inductive Given (n : Nat) (states masks : Flat) : StatesIn → Form → Prop where
  | columns : n ≠ 0 → Given n states masks (.dict (dictOf states masks)) .columns
  | rows {d : Dict} {ds : List Dict} : SameForm d ds → Columns (dictOf states masks) d ds → Given n states masks (.list d (ds.map some)) .rows
  | single {d : Dict} : SameForm d [] → Columns (dictOf states masks) d [] → Given n states masks (.dict d) .single
  | array {x : Nd} : states = [(none, x)] → masks = [] → Given n states masks (.array x) .rows
  | one {x y : Nd} : states = [(none, x)] → masks = [] → Represents x [y] → Given n states masks (.array y) .single

/-- Internal states of `n` time steps, given in a form. -/
inductive GivenBy (n : Nat) (internals : Dict) : InternalsIn → Form → Prop where
  | columns : GivenBy n internals (.dict internals) .columns
  | rows {d : Dict} {ds : List Dict} : SameForm d ds → Columns internals d ds → GivenBy n internals (.list (d :: ds)) .rows
  | single {d : Dict} : SameForm d [] → Columns internals d [] → GivenBy n internals (.dict d) .single

/-- The internal states which an agent needs are given; none are needed if the agent has none. -/
def Supplied (spec : Spec) (n : Nat) (internals : Dict) (ii : InternalsIn) (form : Form) : Prop :=
  (spec.internals = [] ∧ ii = .absent) ∨ (GivenInternals spec n internals ∧ GivenBy n internals ii form)

/-- Specification of the tensors which the policy returns. -/
def actionSpec (spec : Spec) : List (Key × Ent) := spec.actions.map (fun e => (e.1, e.2.ent))

/-- Specification of the internal states. -/
def internalSpec (spec : Spec) : List (Key × Ent) := spec.internals.map (fun e => (some e.1, ⟨e.2.shape, fun _ => true⟩))

/-- The policy answers `n` time steps by `n` actions and internal states as specified. -/
def Answers (spec : Spec) (net : Net) (n : Nat) : Prop :=
  ∀ c, Match n spec.states c.states → Match n (actionSpec spec) (net c).1 ∧ Match n (internalSpec spec) (net c).2

/-- The policy answers `n` time steps by `n` actions as specified, and whatever internal states. -/
def AnswersActions (spec : Spec) (net : Net) (n : Nat) : Prop :=
  ∀ c, Match n spec.states c.states → Match n (actionSpec spec) (net c).1

/-- Specification of the masks. -/
def maskSpec (spec : Spec) : List (Key × Ent) :=
  spec.actions.filterMap (fun e => e.2.mask.map (fun m => (e.1, ⟨e.2.ent.shape ++ [m], fun _ => true⟩)))

/-- `y` is the row at an index which exists. -/
def RowOf (x y : Nd) (i : Nat) : Prop := (∃ n, x.shape.head? = some n ∧ i < n) ∧ y = row x i

/-- Returned actions are values of the policy's answer, or rows of them at the index of the time step. -/
inductive OfPolicy (f : Flat) : Actions → Prop where
  | value {x : Nd} : valueOf none f = some x → OfPolicy f (.value x)
  | first {x y : Nd} : valueOf none f = some x → RowOf x y 0 → OfPolicy f (.value y)
  | values {x : Nd} {l : List Nd} : valueOf none f = some x → (∀ i (h : i < l.length), RowOf x l[i] i) → OfPolicy f (.values l)
  | dict {d : Dict} : (∀ e ∈ d, valueOf (some e.1) f = some e.2) → OfPolicy f (.dict d)
  | firsts {d : Dict} : (∀ e ∈ d, ∃ x, valueOf (some e.1) f = some x ∧ RowOf x e.2 0) → OfPolicy f (.dict d)
  | dicts {l : List Dict} : (∀ i (h : i < l.length), ∀ e ∈ l[i], ∃ x, valueOf (some e.1) f = some x ∧ RowOf x e.2 i) → OfPolicy f (.dicts l)

/-- The same for internal states. -/
inductive StatesOf (f : Flat) : Internals → Prop where
  | dict {d : Dict} : (∀ e ∈ d, valueOf (some e.1) f = some e.2) → StatesOf f (.dict d)
  | firsts {d : Dict} : (∀ e ∈ d, ∃ x, valueOf (some e.1) f = some x ∧ RowOf x e.2 0) → StatesOf f (.dict d)
  | dicts {l : List Dict} : (∀ i (h : i < l.length), ∀ e ∈ l[i], ∃ x, valueOf (some e.1) f = some x ∧ RowOf x e.2 i) → StatesOf f (.dicts l)

/-- The mask of every masked action: the given one, otherwise everything is allowed. -/
def MasksAs (spec : Spec) (n : Nat) (given masks : Flat) : Prop :=
  ∀ e ∈ spec.actions, ∀ m, e.2.mask = some m → ∃ x, valueOf e.1 masks = some x ∧
    (∀ y, valueOf e.1 given = some y → x = y) ∧
    (valueOf e.1 given = none → x = ⟨n :: (e.2.ent.shape ++ [m]), List.replicate (n * count (e.2.ent.shape ++ [m])) 1⟩)

/-- The given internal states which the agent has. -/
def InternalsAs (spec : Spec) (given : Dict) (internals : Flat) : Prop :=
  ∀ e ∈ spec.internals, ∀ x, valueOf e.1 given = some x → valueOf (some e.1) internals = some x

/-- The values of one time step by name. -/
def Picks (f : Flat) (i : Nat) (d : Dict) : Prop :=
  d.map (fun e => some e.1) = f.map Prod.fst ∧ ∀ e ∈ d, ∃ x, (some e.1, x) ∈ f ∧ row x i = e.2

/-- Actions of `n` time steps are shown in a form. -/
def ShowsActions (n : Nat) (f : Flat) : Form → Actions → Prop
  | .single, .value y => ∃ x, f = [(none, x)] ∧ row x 0 = y
  | .single, .dict d => Picks f 0 d
  | .rows, .values l => ∃ x, f = [(none, x)] ∧ l.length = n ∧ ∀ i (h : i < l.length), l[i] = row x i
  | .rows, .dicts l => l.length = n ∧ ∀ i (h : i < l.length), Picks f i l[i]
  | .columns, .value x => f = [(none, x)]
  | .columns, .dict d => f = d.map (fun e => (some e.1, e.2))
  | _, _ => False

/-- Internal states of `n` time steps are shown in a form. -/
def ShowsInternals (n : Nat) (f : Flat) : Form → Internals → Prop
  | .single, .dict d => Picks f 0 d
  | .rows, .dicts l => l.length = n ∧ ∀ i (h : i < l.length), Picks f i l[i]
  | .columns, .dict d => f = d.map (fun e => (some e.1, e.2))
  | _, _ => False

/-- Indices of `n` time steps, given in a form. -/
inductive Indices (n : Nat) : List Int → ParallelIn → Form → Prop where
  | single {p : Int} : Indices n [p] (.one p) .single
  | rows {l : List Int} : l.length = n → l ≠ [] → Indices n l (.many l) .rows
  | columns {l : List Int} : l.length = n → l ≠ [] → Indices n l (.many l) .columns

/-- Every index belongs to an interaction which is not waiting for `observe`. -/
def Free (flags : List Bool) (l : List Int) : Prop := ∀ p ∈ l, 0 ≤ p ∧ flags[p.toNat]? = some true

/-- Exactly the given interactions wait for `observe` in addition. -/
def Waiting (flags flags' : List Bool) (l : List Int) : Prop :=
  flags'.length = flags.length ∧ ∀ q : Nat, q < flags.length → flags'[q]? = if (q : Int) ∈ l then some false else flags[q]?

end Verif.Act
