import Verif.Optim.Float

/-! # Rounding and the reversal of updates (C32, C33, C35) -/

namespace Verif.Props.OptimFloat

open Verif.Optim.Float

/-- C33 with rounding: the reversal is exact for every rounding function if the difference of old and new value is representable. -/
theorem reversal_exact (rnd loss : Rat → Rat) (v v' : Rat) (hv : rnd v = v) (hd : rnd (v' - v) = v' - v) :
    loss (doublecheck rnd loss v v').1 < loss v ∨ (doublecheck rnd loss v v').1 = v := by
  unfold doublecheck
  split
  case isTrue h => exact .inl h
  case isFalse h =>
    refine .inr ?_
    simp only [reported, hd]
    rw [show v' + -(v' - v) = v by grind, hv]

/-- C33 (and C32): a small variable is lost when a large update is reversed; the step reported is zero although the variable changed. -/
theorem reversal_violation : ∃ v v' : Rat, round32 v = v ∧ round32 v' = v' ∧
    let r := doublecheck round32 (fun _ => 0) v v'
    r.1 ≠ v ∧ ¬ (0 : Rat) < 0 ∧ r.2 = 0 := ⟨1/1073741824, 1, by decide +kernel⟩

/-- C33: the reversed variable can even have a larger loss than before. -/
theorem larger_loss_violation : ∃ (loss : Rat → Rat) (v v' : Rat), round32 v = v ∧ round32 v' = v' ∧
    loss v < loss (doublecheck round32 loss v v').1 :=
  ⟨fun x => if x = 1/1073741824 then 0 else 1, 1/1073741824, 1, by decide +kernel⟩

/-- C35: a weight that is not constant but has the value 1 need not give the source. -/
theorem weight_one_violation : ∃ source target : Rat, round32 source = source ∧ round32 target = target ∧
    synchronize round32 1 source target ≠ source := ⟨1/1073741824, 1, by decide +kernel⟩

/-- The rounding function keeps numbers of 24 bits and rounds others to nearest, ties to even. -/
example : round32 (16777215/8) = 16777215/8 ∧ round32 16777217 = 16777216 ∧ round32 16777219 = 16777220 ∧ round32 (-1/3) = -11184811/33554432 :=
  by decide +kernel

example : round32 3 = 3 ∧ round32 (5/2 - 3) = 5/2 - 3 := by decide +kernel

end Verif.Props.OptimFloat
