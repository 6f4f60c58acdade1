import Verif.Const.Model

/-!
# The constant agent: what is expected

Independent of the model's functions except for its data types.
-/

namespace Verif.Const

/-- The value is of the kind of the action. -/
def Fits (kind : Kind) : Val → Prop
  | .bool _ => kind = .bool
  | .int _ => ∃ n, kind = .int n
  | .float _ => kind = .float

/-- The numbers of an action. -/
inductive Numeric : Val → ℚ → Prop where
  | int (z : Int) : Numeric (.int z) z
  | float (x : ℚ) : Numeric (.float x) x

/-- In the space of the action: of its kind and within its bounds. -/
def InSpace (a : Action) (v : Val) : Prop :=
  Fits a.kind v ∧ ∀ x, Numeric v x → (∀ l, a.lo = some (.num l) → l ≤ x) ∧ ∀ h, a.hi = some (.num h) → x ≤ h

/-- Bounds are single numbers. -/
def Plain (a : Action) : Prop := a.lo ≠ some .array ∧ a.hi ≠ some .array

/-- What `TensorSpec` guarantees: bounds in order, integers for integer actions, none for booleans, and given by the number of values. -/
structure Valid (a : Action) : Prop where
  order : ∀ l h, a.lo = some (.num l) → a.hi = some (.num h) → l ≤ h
  bool : a.kind = .bool → a.lo = none ∧ a.hi = none
  int : ∀ n, a.kind = .int n → ∀ b x, (b = a.lo ∨ b = a.hi) → b = some (.num x) → ∃ z : Int, x = z
  values : ∀ n : Nat, a.kind = .int (some n) → 0 < n → a.lo = some (.num 0) ∧ a.hi = some (.num ((n : ℚ) - 1))
  none : a.kind = .int (some 0) → a.lo = Option.none ∧ a.hi = Option.none

/-- The integer closest to a number on the way to zero. -/
def TowardZero (x : ℚ) (z : Int) : Prop := (0 ≤ x → (z : ℚ) ≤ x ∧ x < z + 1) ∧ (x < 0 → x ≤ z ∧ (z : ℚ) - 1 < x)

/-- The value of the kind of the action which Python makes of the value a user gives. -/
inductive Converted : Kind → Given → Val → Prop where
  | bool (b : Bool) : Converted .bool (.bool b) (.bool b)
  | boolInt (z : Int) : z ≠ 0 → Converted .bool (.int z) (.bool true)
  | boolZero : Converted .bool (.int 0) (.bool false)
  | boolFloat (x : ℚ) : x ≠ 0 → Converted .bool (.float x) (.bool true)
  | boolFloatZero : Converted .bool (.float 0) (.bool false)
  | int (n : Option Nat) (z : Int) : Converted (.int n) (.int z) (.int z)
  | intTrue (n : Option Nat) : Converted (.int n) (.bool true) (.int 1)
  | intFalse (n : Option Nat) : Converted (.int n) (.bool false) (.int 0)
  | intFloat (n : Option Nat) (x : ℚ) (z : Int) : TowardZero x z → Converted (.int n) (.float x) (.int z)
  | float (x : ℚ) : Converted .float (.float x) (.float x)
  | floatInt (z : Int) : Converted .float (.int z) (.float z)
  | floatTrue : Converted .float (.bool true) (.float 1)
  | floatFalse : Converted .float (.bool false) (.float 0)

/-- The documented default: false, 0 or 0.0. -/
inductive Documented : Kind → Val → Prop where
  | bool : Documented .bool (.bool false)
  | int (n : Option Nat) : Documented (.int n) (.int 0)
  | float : Documented .float (.float 0)

/-- The default chosen by the code without mask: false, the only bound, the middle of the bounds, or zero. -/
inductive Default (a : Action) : Val → Prop where
  | bool : a.kind = .bool → Default a (.bool false)
  | zero {v : Val} : a.kind ≠ .bool → a.lo = none → a.hi = none → Documented a.kind v → Default a v
  | lower {v : Val} {l : ℚ} : a.lo = some (.num l) → a.hi = none → Fits a.kind v → Numeric v l → Default a v
  | upper {v : Val} {h : ℚ} : a.lo = none → a.hi = some (.num h) → Fits a.kind v → Numeric v h → Default a v
  | middle {l h m : ℚ} : a.kind = .float → a.lo = some (.num l) → a.hi = some (.num h) → m - l = h - m → Default a (.float m)

/-- A mask for a batch: a row for each entry, with an option for each value. -/
def MaskFor (n entries : Nat) (mask : List (List Bool)) : Prop := mask.length = entries ∧ ∀ row ∈ mask, row.length = n

/-- Each row allows some option. -/
def SomeAllowed (mask : List (List Bool)) : Prop := ∀ row ∈ mask, ∃ k : Nat, row[k]? = some true

/-- The least option which a row allows. -/
def Least (row : List Bool) (k : Nat) : Prop := row[k]? = some true ∧ ∀ j < k, row[j]? ≠ some true

/-- The action has a mask. -/
def Masked (c : Config) (a : Action) : Prop := c.masking = true ∧ ∃ n, a.kind = .int (some n)

/-- An entry allowed by its row. -/
def Allowed (row : List Bool) (v : Val) : Prop := ∃ k : Nat, v = .int k ∧ row[k]? = some true

/-- The name has this entry in the list: the first of its name. -/
def Entry {α : Type} (l : List (String × α)) (name : String) (x : α) : Prop := ∃ s t, l = s ++ (name, x) :: t ∧ ∀ e ∈ s, e.1 ≠ name

/-- The name is not in the list. -/
def Absent {α : Type} (l : List (String × α)) (name : String) : Prop := ∀ e ∈ l, e.1 ≠ name

instance {α : Type} [DecidableEq α] : DecidableEq (Except Err α)
  | .ok a, .ok b => if h : a = b then isTrue (by rw [h]) else isFalse (fun e => h (Except.ok.inj e))
  | .error a, .error b => if h : a = b then isTrue (by rw [h]) else isFalse (fun e => h (Except.error.inj e))
  | .ok _, .error _ => isFalse nofun
  | .error _, .ok _ => isFalse nofun

end Verif.Const
