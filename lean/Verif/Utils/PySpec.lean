import Verif.Utils.PyVal

/-! # Specification for structural equality and merging of configurations -/

namespace Verif.Utils.Py

variable {A : Type} [DecidableEq A]

mutual
/-- Equality of values; dictionaries regardless of the order of entries. -/
def Same : Val A → Val A → Prop
  | .tup xs, .tup ys => SameL xs ys
  | .lst xs, .lst ys => SameL xs ys
  | .arr xs, .arr ys => xs = ys
  | .atom a, .atom b => a = b
  | .dct es, .dct fs => es.length = fs.length ∧ SameE es fs
  | _, _ => False
def SameL : Vals A → Vals A → Prop
  | .nil, .nil => True
  | .cons x xs, .cons y ys => Same x y ∧ SameL xs ys
  | _, _ => False
def SameE : Ents A → Ents A → Prop
  | .nil, _ => True
  | .cons k x es, fs => (∃ y, fs.find k = some y ∧ Same x y) ∧ SameE es fs
end

mutual
/-- Corresponding sequences have equal lengths. -/
def Sized : Val A → Val A → Prop
  | .tup xs, .tup ys => SizedL xs ys
  | .lst xs, .lst ys => SizedL xs ys
  | .arr xs, .arr ys => xs.length = ys.length
  | .dct es, .dct fs => SizedE es fs
  | _, _ => True
def SizedL : Vals A → Vals A → Prop
  | .nil, .nil => True
  | .cons x xs, .cons y ys => Sized x y ∧ SizedL xs ys
  | _, _ => False
def SizedE : Ents A → Ents A → Prop
  | .nil, _ => True
  | .cons k x es, fs => (∀ y, fs.find k = some y → Sized x y) ∧ SizedE es fs
end

mutual
/-- No name occurs twice in a dictionary reached through dictionaries. -/
def Uniq : Val A → Prop
  | .dct es => UniqE es
  | _ => True
def UniqE : Ents A → Prop
  | .nil => True
  | .cons k x es => Uniq x ∧ es.find k = none ∧ UniqE es
end

/-- The value at a path of names. -/
def Val.at : Val A → List String → Option (Val A)
  | v, [] => some v
  | .dct es, k :: p =>
    match es.find k with
    | some x => x.at p
    | none => none
  | _, _ :: _ => none

def Val.isDict : Val A → Bool
  | .dct _ => true
  | _ => false

/-- Two settings are equal: as sequences, list or tuple, or as values. -/
def Agree (a b : Val A) : Prop :=
  match a.elems, b.elems with
  | some xs, some ys => pyEqs xs ys = true
  | none, none => pyEq a b = true
  | _, _ => False

/-- Two sides of a path cannot both be kept. -/
def Conflict (a b : Val A) : Prop :=
  a.isDict ≠ b.isDict ∨ (a.isDict = false ∧ b.isDict = false ∧ ¬ Agree a b)

end Verif.Utils.Py
