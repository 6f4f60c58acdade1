import Verif.Net.Spec

/-!
# Which networks can be created

The specifications of the tensors are followed through the steps of the network; besides, there are rules for blocks.
-/

namespace Verif.Net

variable {β : Type}

/-- The specification of the current tensor and those of the registered tensors after a step, if it is possible. -/
def announceStep (S : SpecFns β) (st : Step) (s : β × List (String × β)) : Option (β × List (String × β)) :=
  match st with
  | .plain id | .random id | .stateful id | .temporal id _ => (S.out id s.1).toOption.map fun b => (b, s.2)
  | .register t => if (s.2.lookup t).isSome then none else some (s.1, (t, s.1) :: s.2)
  | .retrieve id ts =>
    if ts = [] ∨ ¬ ts.Nodup then none
    else match lookupAll ts s.2 with
      | none => none
      | some bs => (S.agg id bs).toOption.map fun b => (b, s.2)

def announceSteps (S : SpecFns β) : List Step → β × List (String × β) → Option (β × List (String × β))
  | [], s => some s
  | st :: steps, s => (announceStep S st s).bind (announceSteps S steps)

/-- The name of a layer or block. -/
def LSpec.name : LSpec → String
  | .layer _ name _ _ => name
  | .block name _ => name
  | .list _ => ""

mutual

/-- Blocks consist of layers and blocks with different names, at least one, which neither register nor retrieve tensors. -/
def BlockValid : LSpec → Prop
  | .layer _ _ kind _ => (∀ t, kind ≠ .register t) ∧ ∀ ts, kind ≠ .retrieve ts
  | .block _ layers => layers ≠ [] ∧ (layers.map LSpec.name).Nodup ∧ BlockValidAll layers
  | .list _ => False

def BlockValidAll : List LSpec → Prop
  | [] => True
  | l :: ls => BlockValid l ∧ BlockValidAll ls

end

mutual

/-- Layers of certain kinds are invalid, except within blocks. -/
def Valid (invalid : Kind → Bool) : LSpec → Prop
  | .layer _ _ kind _ => invalid kind = false
  | .block name layers => BlockValid (.block name layers)
  | .list specs => ValidAll invalid specs

def ValidAll (invalid : Kind → Bool) : List LSpec → Prop
  | [] => True
  | l :: ls => Valid invalid l ∧ ValidAll invalid ls

end

mutual

/-- No layer is reused. -/
def NoReuse : LSpec → Prop
  | .layer _ _ kind _ => ∀ l, kind ≠ .reuse l
  | .block _ layers => NoReuseAll layers
  | .list specs => NoReuseAll specs

def NoReuseAll : List LSpec → Prop
  | [] => True
  | l :: ls => NoReuse l ∧ NoReuseAll ls

end

/-- Layers and blocks which do not retrieve tensors, and within which no other layer has their name. -/
def Reusable : LSpec → Prop
  | .layer _ name kind inner => (∀ ts, kind ≠ .retrieve ts) ∧ (kind.hasInner = true → name ∉ inner)
  | .block name layers => name ∉ namesAll layers
  | .list _ => False

/-! ### Names -/

/-- Type names as in `layer_modules` (tensorforce/core/layers/__init__.py 40-57): the last character is no digit. -/
def TypeName (type : String) : Prop := ∃ l c, type.toList = l ++ [c] ∧ c.isDigit = false

mutual

/-- No name is given to a layer, except within blocks. -/
def Unnamed : Spec → Prop
  | .layer type name _ _ => name = none ∧ TypeName type
  | .block name _ => name = none
  | .list specs => UnnamedAll specs

def UnnamedAll : List Spec → Prop
  | [] => True
  | s :: ss => Unnamed s ∧ UnnamedAll ss

end

mutual

/-- The names of the layers which are not within blocks. -/
def topNames : LSpec → List String
  | .layer _ name _ _ => [name]
  | .block name _ => [name]
  | .list specs => topNamesAll specs

def topNamesAll : List LSpec → List String
  | [] => []
  | l :: ls => topNames l ++ topNamesAll ls

end

/-- The type of a layer which has no name given, except lists. -/
def Spec.unnamed : Spec → Option String
  | .layer type none _ _ => some type
  | .block none _ => some "block"
  | _ => none

/-- The name of a layer or block after these ones: the one given, or its type and the number of layers of that type without a name before it. -/
def expectedName (before : List Spec) : Spec → String
  | .layer type name _ _ => name.getD (type ++ toString (before.countP fun s => s.unnamed = some type))
  | .block name _ => name.getD ("block" ++ toString (before.countP fun s => s.unnamed = some "block"))
  | .list _ => ""

mutual

/-- The numbers of all layer objects, also those which layers create for themselves. -/
def ids : LSpec → List Nat
  | .layer id _ _ inner => List.range' id (1 + inner.length)
  | .block _ layers => idsAll layers
  | .list specs => idsAll specs

def idsAll : List LSpec → List Nat
  | [] => []
  | l :: ls => ids l ++ idsAll ls

end

def Spec.isList : Spec → Bool
  | .list _ => true
  | _ => false

end Verif.Net
