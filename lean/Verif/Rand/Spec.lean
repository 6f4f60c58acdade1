import Verif.Rand.Model

/-!
# Random hyperparameters: what is expected

Independent of the model's functions except for its data types.
-/

namespace Verif.Rand

/-- A value satisfies the required bounds. -/
def Satisfies (r : Required) (v : ℚ) : Prop := (∀ c, r.min = some c → c ≤ v) ∧ ∀ d, r.max = some d → v ≤ d

/-- A number of the type: integers have no fraction. -/
def OfType (isInt : Bool) (v : ℚ) : Prop := isInt = true → ∃ z : Int, v = z

/-- A possible draw. -/
def Draw.Possible (d : Draw) : Prop := 0 ≤ d.unit ∧ d.unit < 1

/-- A keyword argument is given. -/
def Given (kw : List (String × Num)) (name : String) (x : Num) : Prop := ∃ l r, kw = l ++ (name, x) :: r ∧ ∀ e ∈ l, e.1 ≠ name

/-- It is not given. -/
def Missing (kw : List (String × Num)) (name : String) : Prop := ∀ e ∈ kw, e.1 ≠ name

/-- The value of an argument: as given, or its default. -/
inductive Argument (kw : List (String × Num)) (name : String) (default : ℚ) : ℚ → Prop where
  | int {z : Int} : Given kw name (.int z) → Argument kw name default z
  | float {x : ℚ} : Given kw name (.float x) → Argument kw name default x
  | missing : Missing kw name → Argument kw name default default

/-- The integer next to a number on the side of zero. -/
def Truncated (x : ℚ) (z : Int) : Prop := (0 ≤ x → (z : ℚ) ≤ x ∧ x < z + 1) ∧ (x < 0 → x ≤ z ∧ (z : ℚ) - 1 < x)

/-- A number converted to the type. -/
def Converted (isInt : Bool) (x v : ℚ) : Prop := if isInt = true then ∃ z, Truncated x z ∧ v = z else v = x

/-- Exponentially weighted sum: the last value has weight one, earlier ones a factor less for each step. -/
def weighted (d : ℚ) (zs : List ℚ) : ℚ := (zs.reverse.mapIdx (fun i z => d ^ i * z)).sum

end Verif.Rand
