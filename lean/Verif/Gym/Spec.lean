import Verif.Gym.Model

/-!
# Specification for the adapter of Gym environments

What the elements of a space are, which observations and actions a specification allows, and under which name each component of an
element is known to the agent.
-/

namespace Verif.Gym

/-- A number allowed by the data type of a specification. -/
def Leaf.okNum (l : Leaf) (x : Num) : Bool :=
  match l.kind, x with
  | .bool, .fin r => r == 0 || r == 1
  | .int, .fin r =>
    match l.numValues with
    | some n => r.den == 1 && decide (0 ≤ r) && decide (r < (n : Rat))
    | none => r.den == 1
  | .float, .fin _ => true
  | _, _ => false

/-- The numbers respect a lower (`ge`) or an upper bound. -/
def Limit.below (xs : List Num) : Limit → Bool
  | .none => true
  | .scalar m => xs.all (m.le ·)
  | .array ms => ms.length == xs.length && (List.zipWith Num.le ms xs).all id
def Limit.above (xs : List Num) : Limit → Bool
  | .none => true
  | .scalar m => xs.all (Num.le · m)
  | .array ms => ms.length == xs.length && (List.zipWith Num.le xs ms).all id

/-- An array allowed by the specification of a component. -/
def Leaf.fits (l : Leaf) (a : Arr) : Bool :=
  a.shape == l.shape && a.elems.length == size l.shape && a.elems.all l.okNum &&
    l.low.below a.elems && l.high.above a.elems

/-- Each name with its component, and no other name. -/
def fitsItems : List (Name × Leaf) → List (Name × Arr) → Bool
  | [], [] => true
  | (n, l) :: ls, (m, a) :: as => n == m && l.fits a && fitsItems ls as
  | _, _ => false

/-- An observation or action allowed by a specification. -/
def Spec.fits : Spec → Flat → Bool
  | .leaf l, .one a => l.fits a
  | .dict ls, .many as => fitsItems ls as
  | _, _ => false

/-- A natural number below `n`. -/
def natBelow (n : Nat) (x : Num) : Bool :=
  match x with
  | .fin r => r.den == 1 && decide (0 ≤ r) && decide (r < (n : Rat))
  | _ => false

mutual
/-- The elements of a space, with finite numbers only. -/
def Space.mem : Space → Value → Bool
  | .discrete n, .array a => a.shape == [] && a.elems.length == 1 && a.elems.all (natBelow n)
  | .multiBinary n, .array a => a.shape == [n] && a.elems.length == n && a.elems.all (natBelow 2)
  | .multiDiscrete shape nvec, .array a =>
    a.shape == shape && a.elems.length == nvec.length && (List.zipWith natBelow nvec a.elems).all id
  | .box shape low high, .array a =>
    a.shape == shape && a.elems.length == low.length && a.elems.all Num.isFin &&
      (List.zipWith Num.le low a.elems).all id && (List.zipWith Num.le a.elems high).all id
  | .tuple ss, .tuple vs => memTuple ss vs
  | .dict ss, .dict vs => memDict ss vs
  | _, _ => false
def memTuple : List Space → List Value → Bool
  | [], [] => true
  | s :: ss, v :: vs => s.mem v && memTuple ss vs
  | _, _ => false
def memDict : List (Name × Space) → List (Name × Value) → Bool
  | [], [] => true
  | (n, s) :: ss, (m, v) :: vs => n == m && s.mem v && memDict ss vs
  | _, _ => false
end

/-- The components under the name of a component of a tuple or a dictionary. -/
def under (name : Name) : Flat → List (Name × Arr)
  | .one a => [(name, a)]
  | .many items => items.map fun x => (name ++ '_' :: x.1, x.2)

/-- The numbers of an array under their own names. -/
def numbered (shape : Name) : Nat → List Num → List (Name × Arr)
  | _, [] => []
  | n, x :: xs => (mdc ++ digits n ++ '_' :: shape, ⟨[], [x]⟩) :: numbered shape (n + 1) xs

/-- All numbers of values of a `MultiDiscrete` space are equal. -/
def uniform (nvec : List Nat) : Bool := nvec.all fun n => nvec.all fun m => n == m

mutual
/-- The components of an element of a space under the names by which the agent knows them. -/
def named : Space → Value → Flat
  | .multiDiscrete shape nvec, .array a =>
    if uniform nvec then .one a else .many (numbered (shapeName shape) 0 a.elems)
  | .tuple ss, .tuple vs => .many (namedTuple 0 ss vs)
  | .dict ss, .dict vs => .many (namedDict ss vs)
  | _, .array a => .one a
  | _, _ => .many []
def namedTuple : Nat → List Space → List Value → List (Name × Arr)
  | n, s :: ss, v :: vs => under (tpl ++ digits n) (named s v) ++ namedTuple (n + 1) ss vs
  | _, _, _ => []
def namedDict : List (Name × Space) → List (Name × Value) → List (Name × Arr)
  | (n, s) :: ss, (_, v) :: vs => under n (named s v) ++ namedDict ss vs
  | _, _ => []
end

/-- A box as Gym creates it: bounds for every element, in order, and at least one element. -/
def goodBox (shape : List Nat) (low high : List Num) : Bool :=
  low.length == size shape && high.length == size shape && low ≠ [] && (List.zipWith Num.le low high).all id &&
    low.all (fun x => x ≠ .posInf) && high.all (fun x => x ≠ .negInf)

mutual
/-- A space as Gym creates it. -/
def Space.wf : Space → Bool
  | .discrete n => decide (0 < n)
  | .multiBinary n => decide (0 < n)
  | .multiDiscrete shape nvec => nvec.length == size shape && nvec ≠ [] && shape ≠ [] && nvec.all fun n => decide (0 < n)
  | .box shape low high => goodBox shape low high
  | .tuple ss => wfTuple ss
  | .dict ss => wfDict ss && decide (ss.map (·.1)).Nodup
  | .other => false
def wfTuple : List Space → Bool
  | [] => true
  | s :: ss => s.wf && wfTuple ss
def wfDict : List (Name × Space) → Bool
  | [] => true
  | (_, s) :: ss => s.wf && wfDict ss
end

/-- A space whose specification is that of one component. -/
def Space.simple : Space → Bool
  | .discrete _ => true
  | .multiBinary _ => true
  | .multiDiscrete _ nvec => uniform nvec
  | .box _ _ _ => true
  | _ => false

/-- A bound of a box is either within the limits of the adapter or infinite. -/
def plainBound (x : Num) : Bool := x == .negInf || x == .posInf || (lowLimit.lt x && x.lt highLimit)

/-- The lower (upper) bounds are all finite, or all infinite. -/
def plainBounds (xs : List Num) : Bool := xs.all plainBound && (xs.all Num.isFin || !xs.any Num.isFin)

/-- A name which the adapter can take apart again. -/
def goodName (n : Name) : Bool := !n.contains '_' && n ≠ "type".toList

mutual
/-- All names of dictionaries in a space can be taken apart again. -/
def Space.goodNames : Space → Bool
  | .tuple ss => goodNamesTuple ss
  | .dict ss => goodNamesDict ss
  | _ => true
def goodNamesTuple : List Space → Bool
  | [] => true
  | s :: ss => s.goodNames && goodNamesTuple ss
def goodNamesDict : List (Name × Space) → Bool
  | [] => true
  | (n, s) :: ss => goodName n && s.goodNames && goodNamesDict ss
end

/-- A step from a space to a component: an entry of a tuple, of a dictionary, or a number of a `MultiDiscrete` space. -/
inductive Step where
  | item (n : Nat)
  | key (name : Name)
  | number (n : Nat) (shape : List Nat)

/-- The numbers of a `MultiDiscrete` space. -/
def numbers (shape : List Nat) : Nat → List Nat → List (List Step × Space)
  | _, [] => []
  | n, x :: xs => ([.number n shape], .discrete x) :: numbers shape (n + 1) xs

mutual
/-- The components of a space, each with the way to it. -/
def Space.parts : Space → List (List Step × Space)
  | .multiDiscrete shape nvec => if uniform nvec then [([], .multiDiscrete shape nvec)] else numbers shape 0 nvec
  | .tuple ss => partsTuple 0 ss
  | .dict ss => partsDict ss
  | s => [([], s)]
def partsTuple : Nat → List Space → List (List Step × Space)
  | _, [] => []
  | n, s :: ss => s.parts.map (fun x => (.item n :: x.1, x.2)) ++ partsTuple (n + 1) ss
def partsDict : List (Name × Space) → List (List Step × Space)
  | [] => []
  | (name, s) :: ss => s.parts.map (fun x => (.key name :: x.1, x.2)) ++ partsDict ss
end

/-- The name of a step. -/
def Step.name : Step → Name
  | .item n => tpl ++ digits n
  | .key name => name
  | .number n shape => mdc ++ digits n ++ '_' :: shapeName shape

/-- The name of a component: the names of the steps, joined by underscores. -/
def pathName (p : List Step) : Name := ['_'].intercalate (p.map Step.name)

/-- An entry of a specification belongs to a component. -/
def Entry (inf : Bool) (part : List Step × Space) (x : Name × Leaf) : Prop :=
  x.1 = pathName part.1 ∧ specs inf none none part.2 = .ok (.leaf x.2)

/-- An entry for each component, in order, and no other entry. -/
def Entries (inf : Bool) : List (List Step × Space) → List (Name × Leaf) → Prop
  | [], [] => True
  | p :: ps, x :: xs => Entry inf p x ∧ Entries inf ps xs
  | _, _ => False

/-- What `specs_from_gym_space` gives for the components of a space. -/
def PartsOf (inf : Bool) (s : Space) : Spec → Prop
  | .leaf l => s.parts = [([], s)] ∧ specs inf none none s = .ok (.leaf l)
  | .dict items => Entries inf s.parts items ∧ ∀ p ∈ s.parts, p.1 ≠ []

/-- The names of a specification. -/
def Spec.names : Spec → List Name
  | .leaf _ => []
  | .dict items => items.map (·.1)

/-- One of the names does not start with the given characters. -/
def someOther (pre : Name) (ss : List (Name × Space)) : Bool := ss.any fun x => !pre.isPrefixOf x.1

/-- Spaces of one component without finite bounds beyond the limits of the adapter. -/
def Space.plain : Space → Bool
  | .box _ low high => plainBounds low && plainBounds high
  | s => s.simple

mutual
/-- The action spaces for which the adapter works: `MultiDiscrete` with at most ten different numbers, tuples of spaces of one
component, and dictionaries of such spaces, in which no name contains an underscore. -/
def Space.supported : Space → Bool
  | .multiDiscrete _ nvec => uniform nvec || decide (nvec.length ≤ 10)
  | .tuple ss => ss ≠ [] && ss.all Space.plain
  | .dict ss =>
    ss.all (fun x => goodName x.1) && someOther mdc ss && someOther gbox ss && someOther tpl ss && supportedDict ss
  | s => s.plain
def supportedDict : List (Name × Space) → Bool
  | [] => true
  | (_, s) :: ss => s.supported && supportedDict ss
end

/-- The observation spaces for which the adapter works: spaces of one component, and tuples and dictionaries of such spaces. -/
def Space.shallow : Space → Bool
  | .tuple ss => ss.all Space.simple
  | .dict ss => ss.all fun x => x.2.simple
  | s => s.simple

/-- The names at the top of a space. -/
def Space.keys : Space → List Name
  | .dict ss => ss.map (·.1)
  | _ => []

/-- The elements of a list whose position is not one of the given ones. -/
def without (indices : List Nat) : Nat → List Num → List Num
  | _, [] => []
  | n, x :: xs => if n ∈ indices then without indices (n + 1) xs else x :: without indices (n + 1) xs

/-- The bounds of an element with clipping: those of the box if they are within the limits of the adapter. -/
def lowBound (m : Rat) (y : Num) : Num := if lowLimit.lt y then y else .fin m
def highBound (M : Rat) (y : Num) : Num := if y.lt highLimit then y else .fin M

/-- A number is moved to the nearest one within the bounds. -/
def Clamped (lo hi x y : Num) : Prop :=
  (lo.le x = false → y = lo) ∧ (x.le hi = false → y = hi) ∧ (lo.le x = true → x.le hi = true → y = x)
instance (lo hi x y : Num) : Decidable (Clamped lo hi x y) := inferInstanceAs (Decidable (_ ∧ _ ∧ _))

/-- The number of bounds is that of the elements. -/
def Limit.sized (n : Nat) : Limit → Bool
  | .array ms => ms.length == n
  | _ => true

/-- A bound is the same for all elements. -/
def Limit.same : Limit → Bool
  | .array _ => false
  | _ => true

mutual
/-- All numbers of a value are finite. -/
def Value.finite : Value → Bool
  | .array a => a.elems.all Num.isFin
  | .tuple vs => finiteTuple vs
  | .dict vs => finiteDict vs
def finiteTuple : List Value → Bool
  | [] => true
  | v :: vs => v.finite && finiteTuple vs
def finiteDict : List (Name × Value) → Bool
  | [] => true
  | (_, v) :: vs => v.finite && finiteDict vs
end

/-- The names at the top of a value. -/
def Value.keys : Value → List Name
  | .dict vs => vs.map (·.1)
  | _ => []

/-- The bound for an element. -/
def Limit.bound (i : Nat) : Limit → Option Num
  | .none => Option.none
  | .scalar x => some x
  | .array xs => xs[i]?

/-- Different bounds, some of them beyond the limit of the adapter. -/
def mixedBounds (inside : Num → Bool) (xs : List Num) : Bool := xs.any (fun x => xs.any fun y => x ≠ y) && xs.any fun x => !inside x

mutual
/-- A box of the space has such bounds. -/
def Space.rejected : Space → Bool
  | .box _ low high => mixedBounds lowLimit.lt low || mixedBounds (Num.lt · highLimit) high
  | .tuple ss => rejectedTuple ss
  | .dict ss => rejectedDict ss
  | _ => false
def rejectedTuple : List Space → Bool
  | [] => false
  | s :: ss => s.rejected || rejectedTuple ss
def rejectedDict : List (Name × Space) → Bool
  | [] => false
  | (_, s) :: ss => s.rejected || rejectedDict ss
end

/-- The name of the mask of an action. -/
def IsMask (actions : Spec) (name : Name) : Prop :=
  match actions with
  | .leaf _ => name = "action_mask".toList
  | .dict items => ∃ x ∈ items, name = x.1 ++ "_mask".toList

/-- The arguments without dropping. -/
def Options.undropped (opts : Options) : Options := { opts with drop := none }

end Verif.Gym
