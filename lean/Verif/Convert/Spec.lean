import Verif.Convert.Model

/-!
# What a specification means

An array belongs to a specification if it has its type and shape and all its entries are numbers in the given range.  Bounds may
be given for leading dimensions only, as required in `tensor_spec.py` lines 682-689.
-/

namespace Verif.Convert

/-- The bound which holds for the entry with index `i`. -/
def boundAt : Bound → List Nat → Rat
  | .one q, _ => q
  | .many a, i => a.get (i.take a.shape.length)

/-- A number may stand at index `i`. -/
def InRange (s : Spec) (i : List Nat) (q : Rat) : Prop :=
  match s.type with
  | .bool => True
  | .int =>
    match s.num with
    | some n => 0 ≤ q ∧ q < n
    | none => (∀ b, s.min = some b → boundAt b i ≤ q) ∧ (∀ b, s.max = some b → q ≤ boundAt b i)
  | .float => (∀ b, s.min = some b → boundAt b i ≤ q) ∧ (∀ b, s.max = some b → q ≤ boundAt b i)

/-- Integers are floats. -/
def TypeFits (type dtype : Base) : Prop := dtype = type ∨ (type = .float ∧ dtype = .int)

/-- The shape of one element, or of any number of them. -/
def ShapeFits (s : Spec) (batched : Bool) (shape : List Nat) : Prop :=
  if batched then ∃ n rest, shape = n :: rest ∧ rest.map Int.ofNat = s.shape else shape.map Int.ofNat = s.shape

/-- The index within one element. -/
def within (batched : Bool) (i : List Nat) : List Nat := if batched then i.drop 1 else i

/-- The array is an element of the specified space, or an array of elements. -/
structure Element (s : Spec) (batched : Bool) (x : Typed) : Prop where
  type : TypeFits s.type x.dtype
  shape : ShapeFits s batched x.arr.shape
  entries : ∀ i ∈ indices x.arr.shape, ∃ q, x.arr.get i = .num q ∧ InRange s (within batched i) q

/-- The entries agree with the type of the array. -/
def WellTyped (x : Typed) : Prop :=
  ∀ i ∈ indices x.arr.shape,
    match x.dtype with
    | .bool => x.arr.get i = .num 0 ∨ x.arr.get i = .num 1
    | .int => ∃ n : Int, x.arr.get i = .num n
    | .float => True

/-- The same array. -/
def Same {α : Type} (x y : Arr α) : Prop := x.shape = y.shape ∧ ∀ i ∈ indices x.shape, x.get i = y.get i

/-- The specification is complete: all dimensions and numbers of values are positive. -/
def Complete (s : Spec) : Prop := (∀ d ∈ s.shape, 0 < d) ∧ (s.type = .int → ∀ n, s.num = some n → 0 < n)

/-- Bounds are numbers, or given for every entry, or one bound is given for leading dimensions of size one. -/
def FullBounds (s : Spec) : Prop := ∀ a, s.min = some (.many a) ∨ s.max = some (.many a) →
  a.shape.map Int.ofNat = s.shape ∨ (∀ d ∈ a.shape, d = 1) ∧ a.shape.map Int.ofNat <+: s.shape

/-! ## Outputs of environments -/

/-- What an environment returns as an array: numbers have no dimensions. -/
def asTyped : Output → Typed
  | .array dtype a => ⟨dtype, a⟩
  | .generic dtype e => ⟨dtype, ⟨[], fun _ => e⟩⟩
  | .python dtype e => ⟨dtype, ⟨[], fun _ => e⟩⟩

/-- Which types pass: fitting ones; arrays of any type for integers, except truth values unless there are two values; and Python's
truth values for numbers. -/
def TypePasses (s : Spec) (batched : Bool) : Output → Prop
  | .array dtype _ => TypeFits s.type dtype ∨ s.type = .int ∧ (dtype = .float ∨ dtype = .bool ∧ s.num = some 2)
  | .generic dtype _ => TypeFits s.type dtype ∨
      (batched = true ∨ s.shape ≠ []) ∧ s.type = .int ∧ (dtype = .float ∨ dtype = .bool ∧ s.num = some 2)
  | .python dtype _ => TypeFits s.type dtype ∨
      (if batched = true ∨ s.shape ≠ [] then s.type = .int ∧ (dtype = .float ∨ dtype = .bool ∧ s.num = some 2)
        else dtype = .bool ∧ s.type ≠ .bool)

/-! ## Creation -/

/-- A bound as it counts for a type: integers lose the fractional part. -/
def rounded (type : Base) (q : Rat) : Rat :=
  match type with
  | .int => if 0 ≤ q then (q.floor : Rat) else (q.ceil : Rat)
  | _ => q

/-- A bound as given, by its entries for an array of the given shape; arrays with one entry count as numbers. -/
def rawAt : Raw → List Nat → Rat
  | .one q, _ => q
  | .array a, i => a.get (if (indices a.shape).length = 1 then a.shape.map (fun _ => 0) else i.take a.shape.length)
  | .lists a, i => a.get (i.take a.shape.length)

/-- No bound is given as lists. -/
def NoLists : Option Raw → Prop
  | some (.lists _) => False
  | _ => True

end Verif.Convert
