import Verif.Utils.PyVal

/-!
# Model of module specifications

Models `tensorforce/core/module.py`, `Module.get_module_class_and_args`, lines 366-479, on top of the model of
`deep_disjoint_update`, and what networks do with its arguments and results.

Simplifications: the contents of JSON files and the outcome of library imports (lines 423-426) are parameters; the recursion has a depth bound
(exceeding it is an error, as Python's recursion limit); all exceptions are one outcome, `none`; dictionaries are values, so that line 396
updating a nested dictionary of the caller in place is not seen; the values of `modules` are callables; wrongly typed arguments `name`,
`modules` and `disable_first_arg` (lines 370-391) do not occur.
-/

namespace Verif.Resolve

open Verif.Utils.Py

/-- Values that are not containers. -/
inductive Atom where
  | none
  | num (n : Int)
  | str (s : String)
  /-- A class or another callable. -/
  | cls (c : Nat)
  /-- A Keras model, or a class of such models. -/
  | keras (i : Nat)
  deriving DecidableEq

abbrev V := Val Atom
abbrev Kw := Ents Atom

/-- Outcome of a library import. -/
inductive Lib where
  | absent
  | found (c : Nat)
  | raises
  deriving DecidableEq

/-- The surroundings: JSON files (`os.path.isfile`, `json.load`) and library imports. -/
structure World where
  file : String → Option V
  library : String → Lib

/-- Argument `modules`: the registered callables, and whether the first of them is a class, so that it has a method `mro` (lines 423-425). -/
structure Modules where
  entries : List (String × Nat)
  mro : Bool

/-- Argument `default_module`: a keyword, or a class, which is a subclass of `Module` or not. -/
inductive Default where
  | key (s : String)
  | cls (c : Nat) (isModule : Bool)
  deriving DecidableEq

/-- Callable, positional argument and keyword arguments. -/
structure Built where
  callee : Atom
  first : Option V
  kwargs : Kw

def has (k : String) (kw : Kw) : Bool := (kw.find k).isSome

/-- `kwargs.pop(key, …)`. -/
def del (k : String) : Kw → Kw
  | .nil => .nil
  | .cons j x es => if j = k then es else .cons j x (del k es)

/-- Names of the arguments of the function itself: as keyword arguments of a recursive call they would be given twice, a `TypeError`. -/
def reserved : List String := ["name", "module", "modules", "default_module", "disable_first_arg"]

/-- Lines 379-384; a missing keyword makes `issubclass` raise, and `modules=None` the membership test. -/
def defaultOk (ms : Option Modules) : Option Default → Bool
  | none => true
  | some (.key s) =>
    match ms with
    | none => false
    | some m => (m.entries.lookup s).isSome
  | some (.cls _ isModule) => ms.isSome && isModule

/-- `default_module` as a specification. -/
def defaultVal : Option Default → V
  | none => .atom .none
  | some (.key s) => .atom (.str s)
  | some (.cls c _) => .atom (.cls c)

/-- Lines 445-446 and 464-465; `none` if neither is given (lines 433 and 458). -/
def defaultModule (m : Modules) : Option Default → Option V
  | some d => some (defaultVal (some d))
  | none => (m.entries.lookup "default").map fun c => .atom (.cls c)

/-- Lines 471-475. -/
def call (name : String) (callee : Atom) (kw : Kw) : Built :=
  ⟨callee, kw.find "_first_arg", (del "_first_arg" kw).put "name" (.atom (.str name))⟩

/-- `Module.get_module_class_and_args(name, module, modules, default_module, disable_first_arg, **kwargs)`. -/
def resolve (w : World) (ms : Option Modules) (name : String) : Nat → Option Default → Bool → V → Kw → Option Built
  | 0, _, _, _, _ => none
  | fuel + 1, d, disable, v, kw =>
    if reserved.any (has · kw) then none
    else if defaultOk ms d = false then none
    else
      match v with
      | .dct spec =>
        match merge kw spec with
        | none => none
        | some kw => resolve w ms name fuel d true ((kw.find "type").getD (defaultVal d)) (del "type" kw)
      | .atom (.str s) =>
        match w.file s with
        | some content => resolve w ms name fuel d true content kw
        | none =>
          match ms with
          | none => none
          | some m =>
            match m.entries.lookup s with
            | some c => resolve w ms name fuel d true (.atom (.cls c)) kw
            | none =>
              if m.mro = false then none
              else
                match w.library s with
                | .raises => none
                | .found c => resolve w ms name fuel d true (.atom (.cls c)) kw
                | .absent =>
                  match defaultModule m d with
                  | none => none
                  | some e =>
                    if has "_first_arg" kw then none
                    else if disable then none
                    else resolve w ms name fuel none false e (kw.put "_first_arg" v)
      | .atom (.cls c) => some (call name (.cls c) kw)
      | v =>
        match ms with
        | none => none
        | some m =>
          match defaultModule m d with
          | some e =>
            if has "_first_arg" kw then none
            else
              match v with
              | .atom .none => resolve w ms name fuel none false e kw
              | v => resolve w ms name fuel none false e (kw.put "_first_arg" v)
          | none =>
            match v with
            | .atom (.keras i) => some (call name (.keras i) kw)
            | _ => none

/-- `LayerbasedNetwork.submodule`, `networks/network.py:207-212`: a positional argument is accepted only without keyword arguments. The
constructor is called by line 245 without it. -/
def layerbased (r : Built) : Option Built :=
  match r.first with
  | none => some r
  | some _ =>
    match r.kwargs with
    | .nil => some r
    | .cons _ _ _ => none

/-- `LayeredNetwork._parse_layers_spec`, `networks/network.py:330-333`, for a single layer. -/
def layerSpec : V → V
  | .atom (.cls c) => .dct (.cons "type" (.atom (.str "function")) (.cons "function" (.atom (.cls c)) .nil))
  | .atom (.str s) => .dct (.cons "type" (.atom (.str s)) .nil)
  | v => v

end Verif.Resolve
