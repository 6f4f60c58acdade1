import Verif.Store.Model

/-!
# Model of saving variables as a name-indexed archive

Models the formats "numpy" and "hdf5" of `Model.save` (`tensorforce/core/models/model.py` 887-910) and `Model.restore` (936-973).

Simplifications: an archive is a list of entries. `np.savez(file=…, **variables)` fails if one of the names is `file`, otherwise stores
every value under its name (a name ending in `.npy`, which `np.load` mixes up, is left out). HDF5 names are paths: a dataset cannot be
created where a dataset or group is, or below a dataset; empty components and `.` do not count. Values are stored exactly and fit the
variable they are assigned to. If restoring fails, the variables assigned before the failure are not recorded.
-/

namespace Verif.Store

inductive ArchiveError where
  | assertion      -- `variable.name[-2] == ':'`
  | argument       -- `TypeError`: two values for the argument `file`
  | exists         -- `create_dataset` where something is already
  | key            -- no such entry
deriving DecidableEq

/-- `variable.name[-2] == ':'`; shorter names raise as well. -/
def wellNamed (name : Name) : Bool := 2 ≤ name.length && name[name.length - 2]? = some ':'

/-- The name of a variable in the archive, 891-894, 904-909. -/
def keyOf (model name : Name) : Name :=
  if (model ++ ['/']).isPrefixOf name then slice (model.length + 1) 2 name else dropEnd 2 name

abbrev Vars (V : Type) := List (Name × V)

/-- `variables[key] = value`. -/
def insert {V : Type} (key : Name) (v : V) : Vars V → Vars V
  | [] => [(key, v)]
  | (k, w) :: a => if k = key then (k, v) :: a else (k, w) :: insert key v a

def collect {V : Type} (model : Name) : Vars V → Vars V → Except ArchiveError (Vars V)
  | [], a => .ok a
  | (n, v) :: vars, a => if wellNamed n then collect model vars (insert (keyOf model n) v a) else .error .assertion

def file : Name := "file".toList

/-- 887-897. -/
def saveNumpy {V : Type} (model : Name) (vars : Vars V) : Except ArchiveError (Vars V) :=
  match collect model vars [] with
  | .error e => .error e
  | .ok a => if file ∈ a.map Prod.fst then .error .argument else .ok a

/-- What `read` returns, assigned to every variable; 946-951, 968-973. -/
def assignAll {V : Type} (model : Name) (read : Name → Option V) : List Name → Except ArchiveError (List V)
  | [] => .ok []
  | n :: names =>
    if wellNamed n then
      match read (keyOf model n), assignAll model read names with
      | some v, .ok vs => .ok (v :: vs)
      | none, _ => .error .key
      | _, .error e => .error e
    else .error .assertion

def restoreNumpy {V : Type} (model : Name) (names : List Name) (a : Vars V) : Except ArchiveError (List V) := assignAll model (a.lookup ·) names

/-- Components between slashes. -/
def components : Name → List Name
  | [] => [[]]
  | c :: s =>
    match components s with
    | [] => [[c]]
    | p :: ps => if c = '/' then [] :: p :: ps else (c :: p) :: ps

def path (key : Name) : List Name := (components key).filter fun p => p ≠ [] && p ≠ ['.']

/-- `create_dataset`. -/
def create {V : Type} (p : List Name) (v : V) (a : List (List Name × V)) : Except ArchiveError (List (List Name × V)) :=
  if p = [] ∨ ∃ q ∈ a.map Prod.fst, q <+: p ∨ p <+: q then .error .exists else .ok (a ++ [(p, v)])

/-- 899-910. -/
def saveHdf5 {V : Type} (model : Name) : Vars V → List (List Name × V) → Except ArchiveError (List (List Name × V))
  | [], a => .ok a
  | (n, v) :: vars, a =>
    if wellNamed n then
      match create (path (keyOf model n)) v a with
      | .error e => .error e
      | .ok a => saveHdf5 model vars a
    else .error .assertion

def restoreHdf5 {V : Type} (model : Name) (names : List Name) (a : List (List Name × V)) : Except ArchiveError (List V) :=
  assignAll model (fun k => a.lookup (path k)) names

end Verif.Store
