import Verif.Norm.Model

/-!
# Normalization and clipping: what is expected

Independent of the model's functions except for its data types.
-/

namespace Verif.Norm

instance {α : Type} [DecidableEq α] : DecidableEq (Except Err α)
  | .ok a, .ok b => if h : a = b then .isTrue (h ▸ rfl) else .isFalse (fun e => h (Except.ok.inj e))
  | .error a, .error b => if h : a = b then .isTrue (h ▸ rfl) else .isFalse (fun e => h (Except.error.inj e))
  | .ok _, .error _ => .isFalse nofun
  | .error _, .ok _ => .isFalse nofun

section Bounds

variable {K : Type} [LE K]

/-- A number is not below a bound. -/
def Above (x : K) : Ext K → Prop
  | .bot => True
  | .fin a => a ≤ x
  | .top => False

/-- A number is not above a bound. -/
def Below (x : K) : Ext K → Prop
  | .bot => False
  | .fin b => x ≤ b
  | .top => True

/-- Bound of an entry: that of all, or its own. -/
inductive BoundAt : Bnd K → Nat → Ext K → Prop where
  | one {b : Ext K} {i : Nat} : BoundAt (.one b) i b
  | each {l : List (Ext K)} {i : Nat} {b : Ext K} : l[i]? = some b → BoundAt (.each l) i b

/-- A row belongs to a range. -/
def Contains (r : Range K) (row : List K) : Prop :=
  row.length = r.size ∧ ∀ i x, row[i]? = some x →
    (∀ m, r.min = some m → ∃ b, BoundAt m i b ∧ Above x b) ∧ (∀ m, r.max = some m → ∃ b, BoundAt m i b ∧ Below x b)

/-- A bound for `n` entries. -/
def Complete (n : Nat) : Bnd K → Prop
  | .one _ => True
  | .each l => l.length = n

end Bounds

/-- A lower bound less than an upper bound. -/
def Strict {K : Type} [LT K] : Ext K → Ext K → Prop
  | .fin a, .fin b => a < b
  | .bot, .fin _ => True
  | .bot, .top => True
  | .fin _, .top => True
  | _, _ => False

/-- Where a bound of linear normalization comes from: the argument, the input, or both alike. -/
inductive Source {K : Type} : Option (Bnd K) → Option (Bnd K) → Bnd K → Prop where
  | given {m : Bnd K} : Source (some m) none m
  | both {m : Bnd K} : Source (some m) (some m) m
  | input {m : Bnd K} : Source none (some m) m

/-- A lower and an upper bound which are at least `eps` apart. -/
def Apart {K : Type} [LE K] [Add K] (eps : K) : Ext K → Ext K → Prop
  | .fin a, .fin b => a + eps ≤ b
  | .bot, .fin _ => True
  | .bot, .top => True
  | .fin _, .top => True
  | _, _ => False

/-- Of two bounds the larger one, or the smaller one. -/
inductive Larger {K : Type} [LE K] : Ext K → Ext K → Ext K → Prop where
  | fin {a b c : K} : (c = a ∨ c = b) → a ≤ c → b ≤ c → Larger (.fin a) (.fin b) (.fin c)
  | botL {b : Ext K} : Larger .bot b b
  | botR {a : Ext K} : Larger a .bot a
  | topL {b : Ext K} : Larger .top b .top
  | topR {a : Ext K} : Larger a .top .top

inductive Smaller {K : Type} [LE K] : Ext K → Ext K → Ext K → Prop where
  | fin {a b c : K} : (c = a ∨ c = b) → c ≤ a → c ≤ b → Smaller (.fin a) (.fin b) (.fin c)
  | botL {b : Ext K} : Smaller .bot b .bot
  | botR {a : Ext K} : Smaller a .bot .bot
  | topL {b : Ext K} : Smaller .top b b
  | topR {a : Ext K} : Smaller a .top a

section Groups

/-- All indices of a shape, in the order of memory. -/
def indices : List Nat → List (List Nat)
  | [] => [[]]
  | n :: s => (List.range n).flatMap (fun i => (indices s).map (i :: ·))

/-- Number of entries. -/
def count (shape : List Nat) : Nat := shape.foldr (· * ·) 1

/-- Place in memory of an entry. -/
def place : List Nat → List Nat → Nat
  | _ :: s, i :: r => i * count s + place s r
  | _, _ => 0

/-- Two entries differ along the axes only. -/
def Along (axes shape a b : List Nat) : Prop := ∀ k, k < shape.length → k ∉ axes → a[k]? = b[k]?

instance (axes shape a b : List Nat) : Decidable (Along axes shape a b) :=
  inferInstanceAs (Decidable (∀ k, k < shape.length → k ∉ axes → a[k]? = b[k]?))

/-- The entries which are normalized together with an entry. -/
def group (axes shape a : List Nat) : List (List Nat) := (indices shape).filter (fun b => Along axes shape a b)

variable {K : Type} [Field K]

/-- Value of a row at an entry. -/
def cell (shape : List Nat) (row : List K) (a : List Nat) : K := row.getD (place shape a) 0

/-- The values of rows at entries. -/
def cells (shape : List Nat) (rows : List (List K)) (g : List (List Nat)) : List K :=
  rows.flatMap (fun r => g.map (cell shape r))

/-- `m` is the mean of a list. -/
def Mean (l : List K) (m : K) : Prop := l ≠ [] ∧ m * l.length = l.sum

/-- `v` is the variance of a list. -/
def Variance (l : List K) (v : K) : Prop := ∃ m, Mean l m ∧ Mean (l.map (fun x => (x - m) ^ 2)) v

/-- The reciprocal square root. -/
def Rsqrt [LinearOrder K] (f : K → K) : Prop := ∀ v, 0 < v → 0 < f v ∧ f v ^ 2 * v = 1

/-- Rows of the right length. -/
def Rows (shape : List Nat) (rows : List (List K)) : Prop := ∀ r ∈ rows, r.length = count shape

/-- Exponentially weighted sum: the last value has weight one, earlier ones a factor less for each step. -/
def weighted (d : K) (xs : List K) : K := (xs.reverse.mapIdx (fun i x => d ^ i * x)).sum

/-- Time steps which reach exponential normalization one at a time. -/
def steps [LinearOrder K] (c : Config K) (f : K → K) (d : K) (constant : Bool) (m : Moving K) (xs : List (List K)) : Moving K :=
  xs.foldl (fun m x => (exponential c f d constant false m [x]).1) m

/-- A mean and a variance for each entry. -/
def Moving.Fits (m : Moving K) (s : List Nat) : Prop := m.mean.length = count s ∧ m.variance.length = count s

end Groups

end Verif.Norm
