import Verif.Param.Model

/-!
# Vocabulary for the statements about scheduled hyperparameters

`Lawful` lists what is assumed of cosine, real powers and the restart index; `sample` shows that the list can be satisfied.
-/

namespace Verif.Param

/-- Facts about the real functions the Keras schedules use. -/
structure Lawful (o : Oracle) : Prop where
  cos_ge : ∀ x, -1 ≤ o.cos x
  cos_le : ∀ x, o.cos x ≤ 1
  cos_zero : o.cos 0 = 1
  cos_one : o.cos 1 = -1
  pow_nonneg : ∀ x y, 0 ≤ x → x ≤ 1 → 0 ≤ y → 0 ≤ o.pow x y
  pow_le_one : ∀ x y, 0 ≤ x → x ≤ 1 → 0 ≤ y → o.pow x y ≤ 1
  pow_zero : ∀ x, o.pow x 0 = 1
  one_pow : ∀ y, o.pow 1 y = 1
  pow_one : ∀ x, 0 ≤ x → o.pow x 1 = x
  /-- Powers of a base below 1 vanish as the exponent grows. -/
  pow_vanish : ∀ x ε, 0 ≤ x → x < 1 → 0 < ε → ∃ n : Nat, ∀ y : Rat, (n : Rat) ≤ y → o.pow x y ≤ ε
  /-- Positive powers are continuous at 0. -/
  pow_small : ∀ y ε, 0 < y → 0 < ε → ∃ δ : Rat, 0 < δ ∧ ∀ x, 0 ≤ x → x ≤ δ → o.pow x y ≤ ε
  restarts_zero : ∀ t, o.restarts t 0 = 0

/-- Schedules whose announced range is right; see the violations for the others. -/
def Decay.Ordinary : Decay → Prop
  | .cosineRestarts _ mMul _ => 0 ≤ mMul ∧ mMul ≤ 1
  | .inverseTime rate _ => rate ≠ 1
  | .linearCosineNoisy _ _ _ => False
  | _ => True

/-- Schedules that begin at the initial value. -/
def Decay.StartsAtInitial : Decay → Prop
  | .linearCosine _ _ _ | .linearCosineNoisy _ _ _ => False
  | _ => True

/-- Schedules whose announced final value is right. -/
def Decay.Settles : Decay → Prop
  | .cosine _ | .cosineRestarts _ _ _ => True
  | .exponential _ _ => True
  | .inverseTime rate _ => 0 < rate ∧ rate ≠ 1
  | .linearCosine periods alpha _ => alpha = 0 ∨ periods = 1 / 2
  | .linearCosineNoisy periods _ _ => periods = 1 / 2
  | .polynomial _ _ _ => True

/-- The sequence `f` is always defined and tends to `l`. -/
def TendsTo (f : Nat → Option Rat) (l : Rat) : Prop :=
  ∀ ε : Rat, 0 < ε → ∃ n : Nat, ∀ k, n ≤ k → ∃ v, f k = some v ∧ l - ε ≤ v ∧ v ≤ l + ε

/-- An oracle with integer powers (exponents rounded up) and a triangle wave up to 1 instead of the cosine. -/
def sample : Oracle where
  cos := fun x => if 0 ≤ x ∧ x ≤ 1 then 1 - 2 * x else -1
  pow := fun x y => x ^ y.ceil.toNat
  restarts := fun t c => if t = 1 ∨ c < 1 then 0 else 1
  noise := fun _ => 1

/-- The piece a step falls into: the number of boundaries before it. -/
def pieceIndex (boundaries : List Nat) (step : Nat) : Nat := boundaries.countP (· < step)

end Verif.Param
