/-!
# Model of `NestedDict`

Models `tensorforce/core/utils/nested_dict.py`: `fmap` (lines 70-134, same class, without names and zip), `is_singleton`
and `singleton` (136-141), `__len__` (143-146), `__iter__`/`items`/`values` (148-188), `__contains__` (190-224),
`__getitem__` (226-253), `__setitem__` (255-305), `pop` (343-382).

Simplifications: a key string is the list of its segments between slashes, `[]` is the key `None` (or `'SINGLETON'`);
segments called `SINGLETON`, list/int/slice keys and the type checks are left out; `overwrite` is one flag for all levels;
dictionaries are values (no aliasing of sub-dictionaries); indexing into a stored value is an error.
-/

namespace Verif.Utils.Nested

mutual
/-- A stored value, a dictionary whose only entry is the singleton entry, or a dictionary of named entries. -/
inductive Tree (V : Type) where
  | leaf (v : V)
  | sing (t : Tree V)
  | node (es : Entries V)
/-- Entries in insertion order. -/
inductive Entries (V : Type) where
  | nil
  | cons (k : String) (t : Tree V) (es : Entries V)
end

variable {V W : Type}

/-- `_is_keyword`, lines 21-22. -/
def isKeyword (k : String) : Bool :=
  ["bool", "int", "float", "type", "shape", "min_value", "max_value", "num_values"].contains k

/-- `OrderedDict.__getitem__`. -/
def Entries.find (k : String) : Entries V → Option (Tree V)
  | .nil => none
  | .cons k' t es => if k' = k then some t else es.find k

mutual
/-- `__getitem__`, lines 226-253; `none` is an exception. -/
def Tree.get : Tree V → List String → Option (Tree V)
  | .leaf _, _ => none
  | .sing t, [] => some t
  | .sing t, p => t.get p
  | .node _, [] => none
  | .node es, k :: p => es.get k p

/-- Lines 246-253: look up the first segment, continue with the rest. -/
def Entries.get : Entries V → String → List String → Option (Tree V)
  | .nil, _, _ => none
  | .cons k' t es, k, p =>
    if k' = k then (if p = [] then some t else t.get p) else es.get k p
end

mutual
/-- `__contains__`, lines 190-224; `none` is a failed assertion. -/
def Tree.has : Tree V → List String → Option Bool
  | .leaf _, _ => none
  | .sing _, [] => some true
  | .sing (.leaf _), _ => some false
  | .sing t, p => t.has p
  | .node .nil, [] => some false
  | .node _, [] => none
  | .node es, k :: p => es.has k p

/-- Lines 214-224. -/
def Entries.has : Entries V → String → List String → Option Bool
  | .nil, _, _ => some false
  | .cons k' t es, k, p =>
    if k' = k then (if p = [] then some true else t.has p) else es.has k p
end

mutual
/-- `__setitem__`, lines 255-305; `none` is an exception. `ow` is `overwrite`. -/
def Tree.set (ow : Bool) : Tree V → List String → Tree V → Option (Tree V)
  | .leaf _, _, _ => none
  | .sing _, [], u => some (.sing u)
  | .sing t, p, u => (t.set ow p u).map .sing
  | .node .nil, [], u => some (.sing u)
  | .node _, [], _ => none
  | .node es, k :: p, u => if isKeyword k then none else (es.set ow k p u).map .node

/-- Lines 277-305: an absent first segment gets a new sub-dictionary. -/
def Entries.set (ow : Bool) : Entries V → String → List String → Tree V → Option (Entries V)
  | .nil, k, p, u => (fresh p u).map fun t => .cons k t .nil
  | .cons k' t es, k, p, u =>
    if k' = k then
      (if p = [] then (if ow then some (.cons k' u es) else none)
        else (t.set ow p u).map fun t' => .cons k' t' es)
    else (es.set ow k p u).map fun es' => .cons k' t es'

/-- A chain of new sub-dictionaries (lines 287-294), or the value itself. -/
def fresh : List String → Tree V → Option (Tree V)
  | [], u => some u
  | k :: p, u => if isKeyword k then none else (fresh p u).map fun t => .node (.cons k t .nil)
end

mutual
/-- `pop`, lines 343-382: the dictionary afterwards (`none` is a failed assertion). -/
def Tree.pop : Tree V → List String → Option (Tree V)
  | .leaf _, _ => none
  | .sing _, [] => some (.node .nil)
  | .sing (.leaf v), _ => some (.sing (.leaf v))
  | .sing t, p => (t.pop p).map .sing
  | .node .nil, [] => some (.node .nil)
  | .node _, [] => none
  | .node es, k :: p => (es.pop k p).map .node

/-- Lines 366-382. -/
def Entries.pop : Entries V → String → List String → Option (Entries V)
  | .nil, _, _ => some .nil
  | .cons k' t es, k, p =>
    if k' = k then (if p = [] then some es else (t.pop p).map fun t' => .cons k' t' es)
    else (es.pop k p).map fun es' => .cons k' t es'
end

mutual
/-- `items`, lines 165-180 (`__iter__`, 148-163, is its first components): flattened names (as segment lists, `[]` for `None`) and values. -/
def Tree.items : Tree V → List (List String × V)
  | .leaf v => [([], v)]
  | .sing t => t.items
  | .node es => es.items

def Entries.items : Entries V → List (List String × V)
  | .nil => []
  | .cons k t es => (t.items.map fun x => (k :: x.1, x.2)) ++ es.items
end

mutual
/-- `__len__`, lines 143-146. -/
def Tree.len : Tree V → Nat
  | .leaf _ => 1
  | .sing t => t.len
  | .node es => es.len

def Entries.len : Entries V → Nat
  | .nil => 0
  | .cons _ t es => t.len + es.len
end

mutual
/-- `values`, lines 182-188. -/
def Tree.vals : Tree V → List V
  | .leaf v => [v]
  | .sing t => t.vals
  | .node es => es.vals

def Entries.vals : Entries V → List V
  | .nil => []
  | .cons _ t es => t.vals ++ es.vals
end

mutual
/-- `fmap(function)`, lines 70-134, with the same class. -/
def Tree.fmap (f : V → W) : Tree V → Tree W
  | .leaf v => .leaf (f v)
  | .sing t => .sing (t.fmap f)
  | .node es => .node (es.fmap f)

def Entries.fmap (f : V → W) : Entries V → Entries W
  | .nil => .nil
  | .cons k t es => .cons k (t.fmap f) (es.fmap f)
end

/-- Operations that change a dictionary. -/
inductive Op (V : Type) where
  | set (p : List String) (u : Tree V)
  | pop (p : List String)

def Tree.step (ow : Bool) (t : Tree V) : Op V → Option (Tree V)
  | .set p u => t.set ow p u
  | .pop p => t.pop p

/-- A history; an operation that raises leaves the dictionary as it was. -/
def Tree.run (ow : Bool) (t : Tree V) (ops : List (Op V)) : Tree V :=
  ops.foldl (fun t o => (t.step ow o).getD t) t

end Verif.Utils.Nested
