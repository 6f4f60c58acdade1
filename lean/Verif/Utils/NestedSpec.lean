import Verif.Utils.NestedDict

/-!
# Specification of nested dictionaries: maps from paths to values

Independent of the operations: what is stored where, and what storing and removing do to such a map.
-/

namespace Verif.Utils.Nested

variable {V W : Type}

mutual
/-- Specification: the value stored at a path (singleton levels are transparent). -/
def look : Tree V → List String → Option V
  | .leaf v, p => if p = [] then some v else none
  | .sing t, p => look t p
  | .node _, [] => none
  | .node es, k :: p => lookE es k p

def lookE : Entries V → String → List String → Option V
  | .nil, _, _ => none
  | .cons k' t es, k, p => if k' = k then look t p else lookE es k p
end

/-- The rest of path `q` behind its prefix `p`. -/
def behind : List String → List String → Option (List String)
  | [], q => some q
  | _ :: _, [] => none
  | k :: p, k' :: q => if k = k' then behind p q else none

/-- Specification of storing the sub-dictionary `u` at `p`. -/
def putAt (p : List String) (u : Tree V) (m : List String → Option V) (q : List String) : Option V :=
  match behind p q with
  | some r => look u r
  | none => m q

/-- Specification of removing everything at and below `p`. -/
def removeAt (p : List String) (m : List String → Option V) (q : List String) : Option V :=
  match behind p q with
  | some _ => none
  | none => m q

mutual
/-- Names are unique at every level (an invariant of `OrderedDict`). -/
def Wf : Tree V → Prop
  | .leaf _ => True
  | .sing t => Wf t
  | .node es => WfE es

def WfE : Entries V → Prop
  | .nil => True
  | .cons k t es => Wf t ∧ es.find k = none ∧ WfE es
end

/-- What an accepted operation does to the map. -/
def specStep (m : List String → Option V) : Op V → List String → Option V
  | .set p u => putAt p u m
  | .pop p => removeAt p m

/-- The operations of a history that do not raise. -/
def accepted (ow : Bool) (t : Tree V) : List (Op V) → List (Op V)
  | [] => []
  | o :: ops =>
    match t.step ow o with
    | some t' => o :: accepted ow t' ops
    | none => accepted ow t ops

/-- Stored sub-dictionaries have unique names. -/
def Op.Ok : Op V → Prop
  | .set _ u => Wf u
  | .pop _ => True

end Verif.Utils.Nested
