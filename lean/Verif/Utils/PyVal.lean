/-!
# Configuration values, structural equality and merging

Models `tensorforce/util.py`: `is_equal` (lines 131-142), `is_iterable` (121-128), `deep_disjoint_update` (166-191).

Simplifications: atoms are an abstract type whose equality is Python's `==`; an atom differs from every other kind of
value; arrays are one-dimensional; dictionaries are lists of entries in insertion order; `none` is an exception.
-/

namespace Verif.Utils.Py

mutual
inductive Val (A : Type) where
  | atom (a : A)
  | tup (xs : Vals A)
  | lst (xs : Vals A)
  | arr (xs : List Int)
  | dct (es : Ents A)
inductive Vals (A : Type) where
  | nil
  | cons (x : Val A) (xs : Vals A)
inductive Ents (A : Type) where
  | nil
  | cons (k : String) (x : Val A) (es : Ents A)
end

variable {A : Type} [DecidableEq A]

def Vals.length : Vals A → Nat
  | .nil => 0
  | .cons _ xs => xs.length + 1

def Ents.length : Ents A → Nat
  | .nil => 0
  | .cons _ _ es => es.length + 1

def Ents.find (k : String) : Ents A → Option (Val A)
  | .nil => none
  | .cons k' x es => if k' = k then some x else es.find k

/-- `target[key] = value`. -/
def Ents.put (k : String) (v : Val A) : Ents A → Ents A
  | .nil => .cons k v .nil
  | .cons k' x es => if k' = k then .cons k' v es else .cons k' x (es.put k v)

/-- `(x == y).all()` with broadcasting of a one-element array; incompatible lengths give no array (`.all()` fails or the
comparison is false, here false). -/
def arrEq (x y : List Int) : Bool :=
  if x.length = y.length then x == y
  else
    match x, y with
    | [a], y => y.all (· == a)
    | x, [b] => x.all (· == b)
    | _, _ => false

mutual
/-- `is_equal`, lines 131-142. -/
def isEqual : Val A → Val A → Bool
  | .tup xs, y => match y with
    | .tup ys => isEqualZip xs ys
    | _ => false
  | .lst xs, y => match y with
    | .lst ys => isEqualZip xs ys
    | _ => false
  | .dct es, y => match y with
    | .dct fs => es.length == fs.length && isEqualEnts es fs
    | _ => false
  | .arr xs, y => match y with
    | .arr ys => arrEq xs ys
    | _ => false
  | .atom a, y => match y with
    | .atom b => a == b
    | _ => false

/-- `all(... for x, y in zip(x, y))`. -/
def isEqualZip : Vals A → Vals A → Bool
  | .cons x xs, .cons y ys => isEqual x y && isEqualZip xs ys
  | _, _ => true

/-- Line 138. -/
def isEqualEnts : Ents A → Ents A → Bool
  | .nil, _ => true
  | .cons k x es, fs =>
    (match fs.find k with
      | some y => isEqual x y
      | none => false) && isEqualEnts es fs
end

mutual
/-- `not (x != y)` as used by lines 184 and 188: dictionaries regardless of order, lists differ from tuples. False stands
for different as well as for an exception: comparing arrays with other than one element has no truth value (NumPy accepts
empty arrays with a warning; here refused). -/
def pyEq : Val A → Val A → Bool
  | .tup xs, y => match y with
    | .tup ys => pyEqs xs ys
    | _ => false
  | .lst xs, y => match y with
    | .lst ys => pyEqs xs ys
    | _ => false
  | .dct es, y => match y with
    | .dct fs => es.length == fs.length && pyEqEnts es fs
    | _ => false
  | .arr xs, y => match y with
    | .arr ys => xs.length == 1 && xs == ys
    | _ => false
  | .atom a, y => match y with
    | .atom b => a == b
    | _ => false
def pyEqs : Vals A → Vals A → Bool
  | .nil, .nil => true
  | .cons x xs, .cons y ys => pyEq x y && pyEqs xs ys
  | _, _ => false
def pyEqEnts : Ents A → Ents A → Bool
  | .nil, _ => true
  | .cons k x es, fs =>
    (match fs.find k with
      | some y => pyEq x y
      | none => false) && pyEqEnts es fs
end

/-- `is_iterable`, lines 121-128, with the elements (strings are atoms). -/
def Val.elems : Val A → Option (Vals A)
  | .tup xs => some xs
  | .lst xs => some xs
  | _ => none

mutual
/-- `deep_disjoint_update(target, source)`, lines 166-191: the updated target, or `none` if it raises. -/
def merge : Ents A → Ents A → Option (Ents A)
  | target, .nil => some target
  | target, .cons k v source =>
    match target.find k with
    | none => merge (target.put k v) source
    | some old =>
      match mergeVal old v with
      | none => none
      | some new => merge (target.put k new) source

/-- Lines 172-191 for one key present on both sides. -/
def mergeVal (old : Val A) : Val A → Option (Val A)
  | .dct src =>
    match old with
    | .dct tgt => (merge tgt src).map .dct
    | _ => none
  | v =>
    match old with
    | .dct _ => none
    | old =>
      match old.elems with
      | some xs =>
        match v.elems with
        | some ys => if pyEqs xs ys then some old else none
        | none => none
      | none => if pyEq old v then some old else none
end

end Verif.Utils.Py
