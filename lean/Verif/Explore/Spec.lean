import Verif.Explore.Model

/-! # What exploration should do -/

namespace Verif.Explore

/-- A mask with one row of `n` entries per component, at least one of them valid. -/
def GoodMask (n : Nat) (mask : List (List Bool)) : Prop := ∀ row ∈ mask, row.length = n ∧ true ∈ row

/-- One valid action per row. -/
def AllValid (mask : List (List Bool)) (a : List Nat) : Prop :=
  a.length = mask.length ∧ ∀ (k x : Nat), a[k]? = some x → ∃ row, mask[k]? = some row ∧ row[x]? = some true

/-- Random outcomes of `tf.random.uniform`. -/
def InUnit (us : List Rat) : Prop := ∀ u ∈ us, 0 ≤ u ∧ u < 1

/-- The outcomes of `tf.random.uniform` in 32 bits: multiples of 2^-23. -/
def Grid (us : List Rat) : Prop := ∀ u ∈ us, ∃ j : Nat, j < 2 ^ 23 ∧ u = (j : Rat) / 2 ^ 23

/-- Rounding to 32-bit floats: relative error at most 2^-24. -/
def Rounding (rnd : Rat → Rat) : Prop := ∀ x, 0 ≤ x → x - x / 2 ^ 24 ≤ rnd x ∧ rnd x ≤ x + x / 2 ^ 24

/-- Within optional bounds. -/
def Within (lo hi : Option Rat) (x : Rat) : Prop := (∀ l, lo = some l → l ≤ x) ∧ (∀ h, hi = some h → x ≤ h)

end Verif.Explore
