import Mathlib.Algebra.Order.Field.Basic

/-!
# Model of the normalization layers and of the clipping layer

Models `tensorforce/core/layers/normalization.py` (24-330) and the class `Clipping` of
`tensorforce/core/layers/preprocessing.py` (56-114).

Numbers are elements of an arbitrary linearly ordered field `K`: the rationals to evaluate the model, the reals to read the theorems.

Simplifications:
* Rounding, overflow and `NaN` are left out; infinite numbers occur as bounds only.
* The reciprocal square root is a function `rsqrt`; the theorems say which facts about it they use.
* A batch is a list of rows, each the list of the entries of one time step in the order of memory.
* Bounds are one number or one number for each entry; bounds for leading dimensions only are left out.
* The variables for mean and variance have an entry for each entry of a time step; along the normalized axes, where the code has
  an axis of size one, these entries are equal (`tf` broadcasting).
* Parameters are their current value, together with whether they are constant.
-/

namespace Verif.Norm

/-- A number or an infinite number. -/
inductive Ext (K : Type) where
  | bot
  | fin (x : K)
  | top
  deriving Repr, DecidableEq

/-- `a < b`, for numbers -/
def Ext.lt {K : Type} [LT K] [DecidableLT K] : Ext K → Ext K → Bool
  | .bot, .bot => false
  | .bot, _ => true
  | .fin _, .bot => false
  | .fin x, .fin y => decide (x < y)
  | .fin _, .top => true
  | .top, _ => false

/-- `np.isinf` -/
def Ext.isInf {K : Type} : Ext K → Bool
  | .fin _ => false
  | _ => true

/-- Sum with a number. -/
def Ext.add {K : Type} [Add K] (d : K) : Ext K → Ext K
  | .fin x => .fin (x + d)
  | b => b

def Ext.min {K : Type} [LT K] [DecidableLT K] (a b : Ext K) : Ext K := if b.lt a then b else a

def Ext.max {K : Type} [LT K] [DecidableLT K] (a b : Ext K) : Ext K := if a.lt b then b else a

/-- A bound: a number for all entries, or an array with a number for each. -/
inductive Bnd (K : Type) where
  | one (b : Ext K)
  | each (l : List (Ext K))
  deriving Repr, DecidableEq

/-- Bound of an entry. -/
def Bnd.entry {K : Type} : Bnd K → Nat → Ext K
  | .one b, _ => b
  | .each l, i => l.getD i .bot

/-- Entry by entry; arrays if one of both is an array (broadcasting). -/
def Bnd.zip {K : Type} (f : Ext K → Ext K → Ext K) : Bnd K → Bnd K → Bnd K
  | .one a, .one b => .one (f a b)
  | .one a, .each m => .each (m.map (f a))
  | .each l, .one b => .each (l.map (fun a => f a b))
  | .each l, .each m => .each (List.zipWith f l m)

/-- Whether a comparison holds for all `n` entries. -/
def Bnd.all {K : Type} (n : Nat) (f : Ext K → Ext K → Bool) (a b : Bnd K) : Bool :=
  (List.range n).all (fun i => f (a.entry i) (b.entry i))

/-- Whether it is an array. -/
def Bnd.isArray {K : Type} : Bnd K → Bool
  | .each _ => true
  | .one _ => false

inductive Err where
  /-- `TensorforceError.required` -/
  | required
  /-- `TypeError`: the exception itself is raised with wrong arguments -/
  | type
  /-- `TensorforceError.value` -/
  | value
  /-- `TensorforceError.mismatch` -/
  | mismatch
  deriving Repr, DecidableEq

/-- Specification of the values of a layer: number of entries and bounds. -/
structure Range (K : Type) where
  size : Nat
  min : Option (Bnd K)
  max : Option (Bnd K)
  deriving Repr, DecidableEq

section Linear

variable {K : Type} [Field K] [LinearOrder K]

/-- Setting the lower bound, `tensor_spec.py` lines 653-727: it is compared with the current upper bound. -/
def setMin (eps : K) (r : Range K) (b : Bnd K) : Except Err (Range K) :=
  match r.max with
  | none => .ok { r with min := some b }
  | some m => if Bnd.all r.size (fun x y => !(y.add (-eps)).lt x) b m then .ok { r with min := some b } else .error .value

/-- Setting the upper bound, lines 653-727. -/
def setMax (eps : K) (r : Range K) (b : Bnd K) : Except Err (Range K) :=
  match r.min with
  | none => .ok { r with max := some b }
  | some m => if Bnd.all r.size (fun x y => !y.lt (x.add eps)) m b then .ok { r with max := some b } else .error .value

/-- `TensorSpec(type='float', min_value=.., max_value=..)`, lines 46-71 -/
def makeRange (eps : K) (n : Nat) (min max : Option (Bnd K)) : Except Err (Range K) := do
  let r ← match min with
    | none => .ok ⟨n, none, none⟩
    | some b => setMin eps ⟨n, none, none⟩ b
  match max with
  | none => .ok r
  | some b => setMax eps r b

/-- Unified lower bound, lines 411-428: of two numbers the larger one, of arrays the smaller entries. -/
def unifyMin : Option (Bnd K) → Option (Bnd K) → Option (Bnd K)
  | none, o => o
  | some a, none => some a
  | some a, some b => some (if a.isArray || b.isArray then Bnd.zip Ext.min a b else Bnd.zip Ext.max a b)

/-- Unified upper bound, lines 430-447: the larger one. -/
def unifyMax : Option (Bnd K) → Option (Bnd K) → Option (Bnd K)
  | none, o => o
  | some a, none => some a
  | some a, some b => some (Bnd.zip Ext.max a b)

/-- `unify` of the ranges of two specifications with the same number of entries, lines 411-489. -/
def unify (eps : K) (a b : Range K) : Except Err (Range K) :=
  match unifyMin a.min b.min, unifyMax a.max b.max with
  | some x, some y => if Bnd.all a.size (fun x y => !y.lt x) x y then makeRange eps a.size (some x) (some y) else .error .mismatch
  | x, y => makeRange eps a.size x y

/-- A linear normalization layer: its bounds and its input specification. -/
structure Linear (K : Type) where
  min : Bnd K
  max : Bnd K
  input : Range K
  deriving Repr, DecidableEq

/-- A bound, given or that of the input, `normalization.py` lines 40-48. -/
def orInput (given input : Option (Bnd K)) : Except Err (Bnd K) :=
  match given with
  | some b => .ok b
  | none =>
    match input with
    | some b => .ok b
    | none => .error .required

/-- `LinearNormalization.__init__`, lines 39-67. -/
def linear (eps : K) (min max : Option (Bnd K)) (input : Range K) : Except Err (Linear K) := do
  let mn ← orInput min input.min
  let mx ← orInput max input.max
  if Bnd.all input.size (fun x y => x.lt y) mn mx then do
    let own ← makeRange eps input.size (some mn) (some mx)
    let spec ← unify eps own input
    pure ⟨mn, mx, spec⟩
  else .error .type

/-- Announced bound: kept if one of the bounds is infinite. -/
def keepInf (l : Linear K) (own : Bnd K) (v : K) : Bnd K :=
  if Bnd.all l.input.size (fun x y => !x.isInf && !y.isInf) l.min l.max then .one (.fin v)
  else Bnd.zip (fun o inf => if inf.isInf then o else .fin v) own (Bnd.zip (fun x y => if x.isInf then x else y) l.min l.max)

/-- `LinearNormalization.output_spec`, lines 69-78: the lower bound is set first. -/
def announced (eps : K) (l : Linear K) : Except Err (Range K) := do
  let r ← setMin eps l.input (keepInf l l.min (-2))
  setMax eps r (keepInf l l.max 2)

/-- One entry, lines 80-89. -/
def scale (min max : Ext K) (x : K) : K :=
  match min, max with
  | .fin a, .fin b => 4 * (x - a) / (b - a) - 2
  | _, _ => x

/-- `LinearNormalization.apply` for one row. -/
def applyLinear (l : Linear K) (row : List K) : List K :=
  row.mapIdx (fun i x => scale (l.min.entry i) (l.max.entry i) x)

/-- A clipping layer with the current values of its parameters, `preprocessing.py` lines 70-95. -/
structure Clip (K : Type) where
  lower : Option K
  upper : Option K
  deriving Repr, DecidableEq

/-- `Clipping.apply` for one entry, lines 97-114; `none` if an assertion fails: without bounds the layer cannot be made
(lines 73-86), and bounds in the wrong order are found when it is applied (assertions are on by default). -/
def clip (c : Clip K) (x : K) : Option K :=
  match c.lower, c.upper with
  | none, none => none
  | none, some u => some (min x u)
  | some l, none => some (max x l)
  | some l, some u => if l ≤ u then some (max (min x u) l) else none

/-- `Clipping.apply` for a row. -/
def applyClip (c : Clip K) (row : List K) : Option (List K) := row.mapM (clip c)

/-- `Layer.output_spec`, `layer.py` lines 75-76, which clipping and the layers below do not override: the range of the input. -/
def inherited (input : Range K) : Range K := input

end Linear

section Groups

/-- Number of entries of a shape. -/
def size : List Nat → Nat
  | [] => 1
  | n :: s => n * size s

/-- Indices of the entry at a place in memory. -/
def unravel : List Nat → Nat → List Nat
  | [], _ => []
  | _ :: s, i => (i / size s) :: unravel s (i % size s)

/-- Indices without those of the normalized axes. -/
def key (axes : List Nat) (shape : List Nat) (i : Nat) : List Nat :=
  (unravel shape i).mapIdx (fun a v => if axes.contains a then 0 else v)

/-- The entries of a time step over which the mean at an entry is taken (`reduce_mean(axis, keepdims=True)`). -/
def members (axes shape : List Nat) (i : Nat) : List Nat :=
  (List.range (size shape)).filter (fun j => key axes shape j = key axes shape i)

variable {K : Type} [Field K]

/-- Mean of a list. -/
def avg (l : List K) : K := l.sum / l.length

/-- Values of rows at given entries. -/
def values (rows : List (List K)) (g : List Nat) : List K :=
  rows.flatMap (fun r => g.map (fun j => r.getD j 0))

/-- Mean over rows and axes, at each entry. -/
def means (axes shape : List Nat) (rows : List (List K)) : List K :=
  (List.range (size shape)).map (fun i => avg (values rows (members axes shape i)))

/-- Mean of the squared differences from the mean (`tf.nn.moments`, lines 187-189). -/
def variances (axes shape : List Nat) (rows : List (List K)) : List K :=
  (List.range (size shape)).map (fun i =>
    avg ((values rows (members axes shape i)).map (fun x => (x - (means axes shape rows).getD i 0) ^ 2)))

end Groups

section Normalize

variable {K : Type} [Field K] [LinearOrder K]

/-- Arguments common to the layers. -/
structure Config (K : Type) where
  shape : List Nat
  axes : List Nat
  onlyMean : Bool
  minVariance : K

/-- Default axes: all but the last (exponential and batch normalization), lines 122-125 and 298-301. -/
def allButLast (shape : List Nat) : List Nat := List.range (shape.length - 1)

/-- Default axes: all (instance normalization), lines 240-243. -/
def allAxes (shape : List Nat) : List Nat := List.range shape.length

/-- Subtraction of the mean and division by the standard deviation, entry by entry, lines 208-216. -/
def normalize (c : Config K) (rsqrt : K → K) (mean variance row : List K) : List K :=
  row.mapIdx (fun i x =>
    if c.onlyMean then x - mean.getD i 0
    else (x - mean.getD i 0) * rsqrt (max (variance.getD i 0) c.minVariance))

/-- `InstanceNormalization.apply`, lines 257-272: each row by itself. -/
def instanceNorm (c : Config K) (rsqrt : K → K) (rows : List (List K)) : List (List K) :=
  rows.map (fun r => normalize c rsqrt (means c.axes c.shape [r]) (variances c.axes c.shape [r]) r)

/-- `BatchNormalization.apply`, lines 315-330. -/
def batchNorm (c : Config K) (rsqrt : K → K) (rows : List (List K)) : List (List K) :=
  rows.map (normalize c rsqrt (means c.axes c.shape rows) (variances c.axes c.shape rows))

/-- Moving mean and variance. -/
structure Moving (K : Type) where
  mean : List K
  variance : List K
  deriving Repr, DecidableEq

/-- Initial values, lines 140-156. -/
def initial (c : Config K) : Moving K := ⟨List.replicate (size c.shape) 0, List.replicate (size c.shape) 1⟩

/-- Moving average of the old and the new value, lines 200-202. -/
def mix (w : K) (old new : List K) : List K := List.zipWith (fun o n => w * o + (1 - w) * n) old new

/-- Mean and variance after a batch which is not independent, lines 165-206. -/
def update (c : Config K) (decay : K) (constant : Bool) (m : Moving K) (rows : List (List K)) : Moving K :=
  let new : Moving K := if rows.isEmpty then m else ⟨means c.axes c.shape rows, if c.onlyMean then m.variance else variances c.axes c.shape rows⟩
  if constant && decide (decay = 0) then new
  else ⟨mix (decay ^ rows.length) m.mean new.mean, if c.onlyMean then m.variance else mix (decay ^ rows.length) m.variance new.variance⟩

/-- `ExponentialNormalization.apply`, lines 158-216. -/
def exponential (c : Config K) (rsqrt : K → K) (decay : K) (constant independent : Bool) (m : Moving K) (rows : List (List K)) :
    Moving K × List (List K) :=
  let m' := if independent || (constant && decide (decay = 1)) then m else update c decay constant m rows
  (m', rows.map (normalize c rsqrt m'.mean m'.variance))

end Normalize

end Verif.Norm
