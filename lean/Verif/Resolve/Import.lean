import Verif.Resolve.Model

/-!
# Model of module paths

Models `tensorforce/util.py`, `try_import_module`, lines 76-118, as called by `core/module.py:426`.

Simplifications: `dir(module)` with the objects behind the names is a parameter, as is `issubclass`; the class whose subclasses are asked for
(`module.py:423-425`) is given; all exceptions but `ImportError` are one outcome, `raises`; `import_module` raises nothing but `ImportError`.
-/

namespace Verif.Resolve

/-- What a name of a module stands for. -/
inductive Obj where
  | cls (c : Nat)
  | other
  deriving DecidableEq

/-- Importable modules with the names which `dir` lists, and `issubclass`. -/
structure Library where
  modules : String → Option (List (String × Obj))
  sub : Nat → Nat → Bool

/-- `str.rsplit('.', 1)`, for lists of characters. -/
def rsplitList : List Char → Option (List Char × List Char)
  | [] => none
  | c :: cs =>
    match rsplitList cs with
    | some (m, n) => some (c :: m, n)
    | none => if c = '.' then some ([], cs) else none

/-- Lines 107 and 110; `none` if there is no dot. -/
def rsplit (s : String) : Option (String × String) := (rsplitList s.toList).map fun p => (String.ofList p.1, String.ofList p.2)

/-- Lines 80-84. -/
def classesOf (L : Library) (parent : Nat) (content : List (String × Obj)) : List Nat :=
  content.filterMap fun p =>
    match p.2 with
    | .cls c => if L.sub c parent then some c else none
    | .other => none

/-- Lines 85-90. -/
def filterClasses (L : Library) (classes : List Nat) : List Nat :=
  if classes.length > 1 then classes.filter fun c => !(classes.all fun x => L.sub x c)
  else classes

/-- `try_import_module(module, parent_class)`. -/
def tryImport (L : Library) (parent : Nat) (s : String) : Lib :=
  match L.modules s with
  | some content =>
    match filterClasses L (classesOf L parent content) with
    | [] => .absent
    | [c] => if c = parent then .raises else .found c
    | _ => .raises
  | none =>
    match rsplit s with
    | none => .absent
    | some (m, n) =>
      match L.modules m with
      | none => .absent
      | some content =>
        match content.lookup n with
        | some (.cls c) => if L.sub c parent && c != parent then .found c else .raises
        | _ => .raises

end Verif.Resolve
