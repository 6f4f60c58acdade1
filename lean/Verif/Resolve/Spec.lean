import Verif.Resolve.Model
import Verif.Utils.PySpec

/-!
# What a module specification stands for

A specification stands for a callable, the dictionaries of settings met on the way to it, and possibly a first argument.
-/

namespace Verif.Resolve

open Verif.Utils.Py

/-- The default of a place in the configuration: the one given for the place, else the registered one. -/
inductive DefaultIs (m : Modules) : Option Default → Nat → Prop
  | cls (c : Nat) (b : Bool) : DefaultIs m (some (.cls c b)) c
  | key (s : String) (c : Nat) : m.entries.lookup s = some c → DefaultIs m (some (.key s)) c
  | registered (c : Nat) : m.entries.lookup "default" = some c → DefaultIs m none c

/-- Neither dictionary, string, callable nor `None`. -/
def Plain : V → Bool
  | .dct _ | .atom (.str _) | .atom (.cls _) | .atom .none => false
  | _ => true

/-- `Means w m d outer v ds c first`: the specification `v` stands for the callable `c` with the settings `ds` and the first argument `first`.
`outer` is false for what a dictionary or a file contains, where a string naming nothing is not an argument. -/
inductive Means (w : World) (m : Modules) (d : Option Default) : Bool → V → List Kw → Atom → Option V → Prop
  | callable (outer : Bool) (c : Nat) : Means w m d outer (.atom (.cls c)) [] (.cls c) none
  | file (outer : Bool) (s : String) (v : V) (ds : List Kw) (c : Atom) (first : Option V) :
    w.file s = some v → Means w m d false v ds c first → Means w m d outer (.atom (.str s)) ds c first
  | keyword (outer : Bool) (s : String) (c : Nat) :
    w.file s = none → m.entries.lookup s = some c → Means w m d outer (.atom (.str s)) [] (.cls c) none
  | path (outer : Bool) (s : String) (c : Nat) :
    w.file s = none → m.entries.lookup s = none → w.library s = .found c → Means w m d outer (.atom (.str s)) [] (.cls c) none
  | string (s : String) (c : Nat) :
    w.file s = none → m.entries.lookup s = none → w.library s = .absent → DefaultIs m d c →
    Means w m d true (.atom (.str s)) [] (.cls c) (some (.atom (.str s)))
  | typed (outer : Bool) (spec : Kw) (t : V) (ds : List Kw) (c : Atom) (first : Option V) :
    spec.find "type" = some t → Means w m d false t ds c first → Means w m d outer (.dct spec) (spec :: ds) c first
  | untyped (outer : Bool) (spec : Kw) (c : Nat) :
    spec.find "type" = none → DefaultIs m d c → Means w m d outer (.dct spec) [spec] (.cls c) none
  | nothing (outer : Bool) (c : Nat) : DefaultIs m d c → Means w m d outer (.atom .none) [] (.cls c) none
  | value (outer : Bool) (v : V) (c : Nat) : Plain v = true → DefaultIs m d c → Means w m d outer v [] (.cls c) (some v)
  | model (outer : Bool) (i : Nat) : (∀ c, ¬ DefaultIs m d c) → Means w m d outer (.atom (.keras i)) [] (.keras i) none

/-- Names with a meaning of their own: the type of a dictionary, the positional argument, and the name given by the parent. -/
def special : List String := ["type", "_first_arg", "name"]

/-- `v` is the setting of `kw` at the path `k :: p`. -/
def Setting (kw : Kw) (k : String) (p : List String) (v : V) : Prop :=
  k ∉ special ∧ v.isDict = false ∧ (Val.dct kw).at (k :: p) = some v

/-- Two dictionaries of settings do not contradict each other (apart from `type`). -/
def Compatible (a b : Kw) : Prop :=
  ∀ k p x y, k ≠ "type" → (Val.dct a).at (k :: p) = some x → (Val.dct b).at (k :: p) = some y → ¬ Conflict x y

/-- No dictionary has a name twice. -/
def World.Ok (w : World) : Prop := ∀ s v, w.file s = some v → Uniq v

/-- No file is named like the keyword of the default. -/
def Unshadowed (w : World) : Option Default → Prop
  | some (.key s) => w.file s = none
  | _ => True

/-- Names which settings cannot have. -/
def Free (kw : Kw) : Prop := ∀ k ∈ ["_first_arg", "name", "module", "modules", "default_module", "disable_first_arg"], has k kw = false

/-- A setting is named like an argument of the function which reads the specification. -/
def taken (kw : Kw) : Bool := ["name", "module", "modules", "default_module", "disable_first_arg"].any fun k => (kw.find k).isSome

/-- The default given is registered, or a kind of module. -/
def DefaultFits (m : Modules) : Option Default → Prop
  | none => True
  | some (.key s) => ∃ c, m.entries.lookup s = some c
  | some (.cls _ isModule) => isModule = true

/-- What is expected of the result, given the keyword arguments of the caller and the settings and first argument of the specification. -/
structure Good (name : String) (kw : Kw) (ds : List Kw) (first : Option V) (r : Built) : Prop where
  /-- Every setting of the caller is kept. -/
  given : ∀ k p v, Setting kw k p v → Setting r.kwargs k p v
  /-- Every setting of the specification is kept, or is equal to the one which is kept. -/
  settings : ∀ d ∈ ds, ∀ k p v, Setting d k p v → ∃ u, Setting r.kwargs k p u ∧ (u = v ∨ Agree u v)
  /-- There are no other settings. -/
  only : ∀ k p v, Setting r.kwargs k p v → Setting kw k p v ∨ ∃ d ∈ ds, Setting d k p v
  /-- The module gets its name. -/
  called : r.kwargs.find "name" = some (.atom (.str name))
  /-- The first argument is passed. -/
  positional : ∀ v, first = some v → r.first = some v
  /-- Nothing else is passed as first argument, unless given by its internal name. -/
  noFirst : has "_first_arg" kw = false → (∀ d ∈ ds, has "_first_arg" d = false) → r.first = first
  /-- The first argument is not passed a second time. -/
  internal : has "_first_arg" r.kwargs = false
  /-- The first argument is not given a second time by its internal name. -/
  once : ∀ v, first = some v → has "_first_arg" kw = false ∧ ∀ d ∈ ds, has "_first_arg" d = false

end Verif.Resolve
