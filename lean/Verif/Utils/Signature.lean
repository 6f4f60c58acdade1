import Verif.Utils.NestedSpec

/-!
# Model of argument flattening by signature

Models `tensorforce/core/utils/dicts.py`: `SignatureDict.kwargs_to_args` (lines 161-226) and `args_to_kwargs` (228-289)
with `to_dict=False`, `from_dict=False`, `outer_tuple=False`.

Simplifications: tensor specifications and tensors are abstract, `compat` is `is_compatible_with`; the keyword arguments
are a `TensorDict` at every level (so the `is_outer` checks of lines 179-182 coincide); `none` is an exception.
-/

namespace Verif.Utils.Signature

open Verif.Utils.Nested

variable {S V : Type}

/-- Flattened arguments: a tensor, or a tuple. -/
inductive Args (V : Type) where
  | val (v : V)
  | tup (as : List (Args V))

/-- What the loop variable `arg` holds after line 216; a tuple is refused by every later use, like an unset variable. -/
def Args.carry : Args V → Option (Tree V)
  | .val v => some (.leaf v)
  | .tup _ => none

/-- Lines 191-192: `arg` keeps its previous value if the name is missing. -/
def pick (kw : Tree V) (k : String) (arg : Option (Tree V)) : Option (Tree V) :=
  if kw.has [k] = some true then kw.get [k] else arg

mutual
/-- `kwargs_to_args`. -/
def flat (compat : S → V → Bool) : Tree S → Tree V → Option (Args V)
  | .leaf _, _ => none
  | .sing (.leaf s), kw =>
    match kw with
    | .leaf v => if compat s v then some (.val v) else none
    | .sing (.leaf v) => if compat s v then some (.val v) else none
    | _ => none
  | .sing t, kw => flat compat t kw
  | .node es, kw =>
    match kw with
    | .leaf _ => none
    | kw => (flatE compat es kw none).map .tup

/-- The loop of lines 187-220. -/
def flatE (compat : S → V → Bool) : Entries S → Tree V → Option (Tree V) → Option (List (Args V))
  | .nil, _, _ => some []
  | .cons k (.leaf s) es, kw, arg =>
    match pick kw k arg with
    | some (.leaf v) =>
      if compat s v then (flatE compat es kw (some (.leaf v))).map (.val v :: ·) else none
    | _ => none
  | .cons k t es, kw, arg =>
    if t.len = 0 then flatE compat es kw (pick kw k arg)
    else
      match pick kw k arg with
      | none => none
      | some x =>
        match flat compat t x with
        | none => none
        | some a => (flatE compat es kw a.carry).map (a :: ·)
end

mutual
/-- Line 280: the same structure without values (`leaf` does not occur when the length is 0). -/
def skeleton : Tree S → Tree V
  | .leaf _ => .node .nil
  | .sing t => .sing (skeleton t)
  | .node es => .node (skeletonE es)
def skeletonE : Entries S → Entries V
  | .nil => .nil
  | .cons k t es => .cons k (skeleton t) (skeletonE es)
end

mutual
/-- `args_to_kwargs`. -/
def rebuild (compat : S → V → Bool) : Tree S → Args V → Option (Tree V)
  | .leaf _, _ => none
  | .sing (.leaf s), a =>
    match a with
    | .val v => if compat s v then some (.sing (.leaf v)) else none
    | .tup _ => none
  | .sing t, a => (rebuild compat t a).map .sing
  | .node es, a =>
    match a with
    | .val _ => none
    | .tup as => (rebuildE compat es as).map .node

/-- The loop of lines 251-285; the list holds the arguments from `index` on. -/
def rebuildE (compat : S → V → Bool) : Entries S → List (Args V) → Option (Entries V)
  | .nil, _ => some .nil
  | .cons k (.leaf s) es, as =>
    match as with
    | .val v :: as => if compat s v then (rebuildE compat es as).map (.cons k (.leaf v)) else none
    | _ => none
  | .cons k t es, as =>
    if t.len = 0 then (rebuildE compat es as).map (.cons k (skeleton t))
    else
      match as with
      | [] => none
      | a :: as =>
        match rebuild compat t a with
        | none => none
        | some x => (rebuildE compat es as).map (.cons k x)
end

/-! ## Specification -/

mutual
/-- The arguments have exactly the structure of the signature. -/
def Matches (compat : S → V → Bool) : Tree S → Tree V → Prop
  | .leaf s, .leaf v => compat s v = true
  | .sing s, .sing v => Matches compat s v
  | .node es, .node fs => MatchesE compat es fs
  | _, _ => False
def MatchesE (compat : S → V → Bool) : Entries S → Entries V → Prop
  | .nil, .nil => True
  | .cons k t es, .cons k' x fs => k = k' ∧ Matches compat t x ∧ MatchesE compat es fs
  | _, _ => False
end

mutual
/-- No singleton directly inside a singleton. -/
def Plain : Tree S → Prop
  | .leaf _ => True
  | .sing (.sing _) => False
  | .sing t => Plain t
  | .node es => PlainE es
def PlainE : Entries S → Prop
  | .nil => True
  | .cons _ t es => Plain t ∧ PlainE es
end

end Verif.Utils.Signature
