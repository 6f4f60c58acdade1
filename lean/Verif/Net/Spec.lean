import Verif.Net.Model

/-!
# Specification for layered networks

A network stands for a sequence of steps: lists and blocks are written out, and a reused layer stands for the steps of the latest layer of that name
defined before it. Every temporal layer has a state of its own.
-/

namespace Verif.Net

inductive Step where
  | plain (id : Nat)
  | random (id : Nat)
  | stateful (id : Nat)
  | temporal (id : Nat) (name : String)
  | register (tensor : String)
  | retrieve (id : Nat) (tensors : List String)
deriving DecidableEq, Repr

/-- What the names of the layers defined so far stand for, newest first. -/
abbrev Scope := List (String × List Step)

/-- The layers a layer creates for itself. -/
def innerDefs (id : Nat) : List String → Scope
  | [] => []
  | n :: ns => innerDefs (id + 1) ns ++ [(n, [.plain id])]

/-- The steps of a single layer. -/
def kindSteps (id : Nat) (name : String) (kind : Kind) (scope : Scope) : List Step :=
  match kind with
  | .plain | .prep => [.plain id]
  | .random => [.random id]
  | .stateful => [.stateful id]
  | .temporal => [.temporal id name]
  | .register t => [.register t]
  | .retrieve ts => [.retrieve id ts]
  | .reuse l => (scope.lookup l).getD []

/-- Layers which create layers for themselves. -/
def Kind.hasInner : Kind → Bool
  | .register _ | .retrieve _ | .reuse _ => false
  | _ => true

mutual

/-- The steps of a part of a network, and the names it defines. -/
def expand : LSpec → Scope → List Step × Scope
  | .layer id name kind inner, scope =>
    let steps := kindSteps id name kind scope
    (steps, (if kind.hasInner then innerDefs (id + 1) inner else []) ++ [(name, steps)])
  | .block name layers, scope =>
    let r := expandAll layers scope
    (r.1, r.2 ++ [(name, r.1)])
  | .list specs, scope => expandAll specs scope

def expandAll : List LSpec → Scope → List Step × Scope
  | [], _ => ([], [])
  | l :: ls, scope =>
    let r := expand l scope
    let rs := expandAll ls (r.2 ++ scope)
    (r.1 ++ rs.1, rs.2 ++ r.2)

end

/-- The steps of networks created one after the other. -/
def stepsOf : List LSpec → Scope → List (List Step)
  | [], _ => []
  | l :: ls, scope => (expand l scope).1 :: stepsOf ls ((expand l scope).2 ++ scope)

/-- The current tensor, the registered tensors, the state of every temporal layer, and whether the current tensor comes from a temporal layer of the
same sequence. -/
structure Exec (α ι : Type) where
  x : α
  tensors : List (String × α)
  states : Nat × String → ι
  check : Bool

variable {α β ι : Type}

def update (states : Nat × String → ι) (k : Nat × String) (i : ι) : Nat × String → ι := fun j => if j = k then i else states j

def execStep (F : Fns α ι) (m : Mode) (st : Step) (e : Exec α ι) : Except NError (Exec α ι) :=
  match st with
  | .plain id => .ok { e with x := F.plain id e.x }
  | .random id => .ok { e with x := F.random id m.deterministic e.x }
  | .stateful id => .ok { e with x := F.stateful id m.independent e.x }
  | .temporal id name =>
    if e.check then .error .successive
    else
      let r := F.temporal id e.x (e.states (id, name))
      .ok { e with x := r.1, states := update e.states (id, name) r.2, check := true }
  | .register t => if (e.tensors.lookup t).isSome then .error .exists_ else .ok { e with tensors := (t, e.x) :: e.tensors }
  | .retrieve id ts =>
    match lookupAll ts e.tensors with
    | none => .error .existsNot
    | some vs => .ok { e with x := F.retrieve id vs, check := false }

def exec (F : Fns α ι) (m : Mode) (steps : List Step) (e : Exec α ι) : Except NError (Exec α ι) := chain (execStep F m) steps e

/-- At the beginning. -/
def start (inputs : Inputs α) (states : Nat × String → ι) : Exec α ι := ⟨inputs.value, inputs.tensors, states, false⟩

/-- The temporal layers among the steps. -/
def temporalSteps (steps : List Step) : List (Nat × String) :=
  steps.filterMap fun st => match st with
    | .temporal id name => some (id, name)
    | _ => none

/-! ### Which names are redefined -/

mutual

/-- The names of all layers of a part of a network. -/
def names : LSpec → List String
  | .layer _ name kind inner => name :: (if kind.hasInner then inner else [])
  | .block name layers => name :: namesAll layers
  | .list specs => namesAll specs

def namesAll : List LSpec → List String
  | [] => []
  | l :: ls => names l ++ namesAll ls

end

mutual

/-- No layer with the name of a reused layer is defined after the reuse; `after` are the names which are defined after this part of the network. -/
def Stable : LSpec → List String → Prop
  | .layer _ _ kind _, after =>
    match kind with
    | .reuse l => l ∉ after
    | _ => True
  | .block _ layers, after => StableAll layers after
  | .list specs, after => StableAll specs after

def StableAll : List LSpec → List String → Prop
  | [], _ => True
  | l :: ls, after => Stable l (namesAll ls ++ after) ∧ StableAll ls after

end

/-! ### Layers as announced -/

mutual

/-- The layers which layers create for themselves announce what they get. -/
def InnerKeep {β : Type} (S : SpecFns β) : LSpec → Prop
  | .layer id _ kind inner => kind.hasInner = true → ∀ i, id < i → i ≤ id + inner.length → ∀ b, S.out i b = .ok b
  | .block _ layers => InnerKeepAll S layers
  | .list specs => InnerKeepAll S specs

def InnerKeepAll {β : Type} (S : SpecFns β) : List LSpec → Prop
  | [] => True
  | l :: ls => InnerKeep S l ∧ InnerKeepAll S ls

end

/-- The layers compute tensors as announced: `Has x b` says that the tensor `x` is as the specification `b`. -/
structure Sound (Has : α → β → Prop) (S : SpecFns β) (F : Fns α ι) : Prop where
  plain : ∀ id b b' x, S.out id b = .ok b' → Has x b → Has (F.plain id x) b'
  random : ∀ id b b' x d, S.out id b = .ok b' → Has x b → Has (F.random id d x) b'
  stateful : ∀ id b b' x d, S.out id b = .ok b' → Has x b → Has (F.stateful id d x) b'
  temporal : ∀ id b b' x i, S.out id b = .ok b' → Has x b → Has (F.temporal id x i).1 b'
  retrieve : ∀ id bs b' (xs : List α), S.agg id bs = .ok b' → xs.length = bs.length →
    (∀ (k : Nat) x b, xs[k]? = some x → bs[k]? = some b → Has x b) → Has (F.retrieve id xs) b'

/-- The inputs are as announced. -/
def InputsOk (Has : α → β → Prop) (x : Inputs α) (b : Inputs β) : Prop :=
  Has x.value b.value ∧ ∀ t c, b.tensors.lookup t = some c → ∃ v, x.tensors.lookup t = some v ∧ Has v c

/-! ### Rows -/

/-- How many rows a tensor has: one for each timestep, those of the past horizon as well, or a mixture which no operation accepts. -/
inductive Rows where
  | one
  | all
  | bad
deriving DecidableEq, Repr

/-- Temporal layers turn the rows of the past horizon into one; other layers treat every row on its own; something is always retrieved. -/
def rowFns : Fns Rows Unit where
  plain _ x := x
  random _ _ x := x
  stateful _ _ x := x
  temporal _ x _ := (if x = .all then .one else .bad, ())
  retrieve _ xs :=
    match xs with
    | [] => .all
    | x :: xs => if xs.all (· == x) then x else .bad

/-- Inputs with the rows of the past horizon. -/
def rowInputs (inputs : Inputs β) : Inputs Rows :=
  match inputs with
  | .single _ => .single .all
  | .named n _ rest => .named n .all (rest.map fun p => (p.1, .all))

/-- No tensor is retrieved after a temporal layer. -/
def noRetrieveAfter : List Step → Bool
  | [] => true
  | .temporal _ _ :: steps => steps.all fun st => match st with
    | .retrieve _ _ => false
    | _ => true
  | _ :: steps => noRetrieveAfter steps

/-! ### Preprocessing -/

mutual

/-- The preprocessing layers, also those of blocks. -/
def prepIds : LSpec → List Nat
  | .layer id _ kind _ => if kind = .prep then [id] else []
  | .block _ layers => prepIdsAll layers
  | .list specs => prepIdsAll specs

def prepIdsAll : List LSpec → List Nat
  | [] => []
  | l :: ls => prepIds l ++ prepIdsAll ls

end

mutual

/-- Neither blocks nor reused layers, and no tensors named `state` or `input`. -/
def Flat : LSpec → Prop
  | .layer _ _ kind _ =>
    match kind with
    | .reuse _ => False
    | .register t => t ≠ "state" ∧ t ≠ "input"
    | .retrieve ts => "state" ∉ ts ∧ "input" ∉ ts
    | _ => True
  | .block _ _ => False
  | .list specs => FlatAll specs

def FlatAll : List LSpec → Prop
  | [] => True
  | l :: ls => Flat l ∧ FlatAll ls

end

end Verif.Net
