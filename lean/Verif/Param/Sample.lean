import Verif.Param.Range

/-! # The assumptions on cosine and powers can be satisfied -/

namespace Verif.Param

/-- Powers of a base up to 1 shrink at least like the reciprocal of the exponent. -/
theorem pow_bernoulli {x : Rat} (h0 : 0 ≤ x) (h1 : x ≤ 1) (n : Nat) : (n : Rat) * ((1 - x) * x ^ n) ≤ 1 - x ^ n := by
  induction n with
  | zero => simp [Rat.pow_zero]; grind
  | succ n ih =>
    have hp := pow_range ⟨h0, h1⟩ (n + 1)
    have a1 := mul_up h0 ih
    have a2 := mul_up (x := 1 - x) (by grind) hp.2
    have e : ((n + 1 : Nat) : Rat) = (n : Rat) + 1 := by exact_mod_cast rfl
    rw [e]
    rw [Rat.pow_succ] at *
    generalize x ^ n = w at *
    generalize (n : Rat) = m at *
    have e1 : x * (m * ((1 - x) * w)) = m * ((1 - x) * (w * x)) := by grind
    have e2 : (m + 1) * ((1 - x) * (w * x)) = m * ((1 - x) * (w * x)) + (1 - x) * (w * x) := by grind
    rw [e1] at a1
    rw [e2]
    have e3 : x * (1 - w) = x - w * x := by grind
    rw [e3] at a1
    rw [Rat.mul_one] at a2
    generalize m * ((1 - x) * (w * x)) = s at *
    generalize (1 - x) * (w * x) = t at *
    generalize w * x = z at *
    clear e e1 e2 e3 ih
    grind

theorem pow_le_of_large {x ε : Rat} (h0 : 0 ≤ x) (h1 : x < 1) (hε : 0 < ε) : ∃ n : Nat, ∀ k, n ≤ k → x ^ k ≤ ε := by
  have hp : 0 < ε * (1 - x) := Rat.mul_pos hε (by grind)
  obtain ⟨n, hn⟩ := exists_nat_ge (ε * (1 - x))⁻¹
  refine ⟨n, fun k hk => ?_⟩
  have e : (ε * (1 - x)) * (ε * (1 - x))⁻¹ = 1 := Rat.mul_inv_cancel _ (by grind)
  have hk' : (n : Rat) ≤ (k : Rat) := by exact_mod_cast hk
  have a1 := mul_up (x := ε * (1 - x)) (by grind) (show (ε * (1 - x))⁻¹ ≤ (k : Rat) by grind)
  rw [e] at a1
  have hb := pow_bernoulli h0 (by grind) k
  have hr := pow_range ⟨h0, by grind⟩ k
  generalize x ^ k = w at *
  have a2 := mul_up hr.1 a1
  have a3 := mul_up (x := ε) (by grind) (show (k : Rat) * ((1 - x) * w) ≤ 1 by grind)
  have e2 : w * (ε * (1 - x) * (k : Rat)) = ε * ((k : Rat) * ((1 - x) * w)) := by grind
  rw [e2] at a2
  grind

theorem ceil_toNat_ge {n : Nat} {y : Rat} (h : (n : Rat) ≤ y) : n ≤ y.ceil.toNat := by
  have h1 := Rat.le_ceil (x := y)
  have h2 : ((n : Int) : Rat) ≤ ((y.ceil : Int) : Rat) := by
    have : ((n : Int) : Rat) = (n : Rat) := rfl
    grind
  have h3 : (n : Int) ≤ y.ceil := by exact_mod_cast h2
  omega

theorem sample_lawful : Lawful sample where
  cos_ge x := by simp only [sample]; split <;> grind
  cos_le x := by simp only [sample]; split <;> grind
  cos_zero := by decide +kernel
  cos_one := by decide +kernel
  pow_nonneg x y h0 h1 _ := (pow_range ⟨h0, h1⟩ _).1
  pow_le_one x y h0 h1 _ := (pow_range ⟨h0, h1⟩ _).2
  pow_zero x := by
    have : (0 : Rat).ceil.toNat = 0 := by decide +kernel
    simp only [sample, this, Rat.pow_zero]
  one_pow y := by
    simp only [sample]
    induction y.ceil.toNat with
    | zero => exact Rat.pow_zero _
    | succ n ih => rw [Rat.pow_succ, ih]; grind
  pow_one x _ := by
    have : (1 : Rat).ceil.toNat = 1 := by decide +kernel
    simp only [sample, this, Rat.pow_succ, Rat.pow_zero]; grind
  pow_vanish x ε h0 h1 hε := by
    obtain ⟨n, hn⟩ := pow_le_of_large h0 h1 hε
    exact ⟨n, fun y hy => hn _ (ceil_toNat_ge hy)⟩
  pow_small y ε hy hε := by
    have h1 : 1 ≤ y.ceil.toNat := by
      have h2 := Rat.le_ceil (x := y)
      have h3 : ((0 : Int) : Rat) < ((y.ceil : Int) : Rat) := by
        have : ((0 : Int) : Rat) = 0 := rfl
        grind
      have h4 : (0 : Int) < y.ceil := by exact_mod_cast h3
      omega
    refine ⟨if ε ≤ 1 then ε else 1, by split <;> grind, fun x hx0 hx => ?_⟩
    have hx1 : x ≤ 1 := by split at hx <;> grind
    have hxε : x ≤ ε := by split at hx <;> grind
    simp only [sample]
    obtain ⟨m, hm⟩ : ∃ m, y.ceil.toNat = m + 1 := ⟨y.ceil.toNat - 1, by omega⟩
    rw [hm, Rat.pow_succ]
    have := mul_up hx0 (pow_range ⟨hx0, hx1⟩ m).2
    rw [Rat.mul_comm]
    grind
  restarts_zero t := by
    have h : (0 : Rat) < 1 := by decide +kernel
    simp only [sample, h, or_true, if_true]

end Verif.Param
