import Verif.Param.Spec

/-! # Lemmas about scheduled hyperparameters -/

namespace Verif.Param

/-! ## Arithmetic -/

theorem mul_up {x a b : Rat} (hx : 0 ≤ x) (h : a ≤ b) : x * a ≤ x * b := Rat.mul_le_mul_of_nonneg_left h hx

theorem mul_down {x a b : Rat} (hx : x ≤ 0) (h : a ≤ b) : x * b ≤ x * a := by
  have := mul_up (x := -x) (by grind) h
  grind

theorem trunc_mono {x y : Rat} (h : x ≤ y) : trunc x ≤ trunc y := by
  unfold trunc
  split <;> split
  · have := Rat.floor_monotone h
    exact_mod_cast this
  · grind
  · have h1 : x.ceil ≤ 0 := Rat.ceil_le_iff.mpr (by grind)
    have h2 : 0 ≤ y.floor := Rat.le_floor_iff.mpr (by grind)
    have : x.ceil ≤ y.floor := by omega
    exact_mod_cast this
  · have : x.ceil ≤ y.ceil := Rat.ceil_le_iff.mpr (by have := Rat.le_ceil (x := y); grind)
    exact_mod_cast this

theorem cast_mono {i : Bool} {x y : Rat} (h : x ≤ y) : toDtype i x ≤ toDtype i y := by
  unfold toDtype; split
  · exact trunc_mono h
  · exact h

theorem trunc_int (z : Int) : trunc (z : Rat) = z := by
  unfold trunc
  split
  · rw [Rat.floor_intCast]
  · rw [Rat.ceil_intCast]

theorem part_range (d step : Nat) (hd : 0 < d) : 0 ≤ part d step ∧ part d step ≤ 1 := by
  unfold part
  have hd' : (0 : Rat) < (d : Rat) := by exact_mod_cast hd
  have h1 : ((min step d : Nat) : Rat) ≤ (d : Rat) := by
    have : min step d ≤ d := Nat.min_le_right _ _
    exact_mod_cast this
  have h0 : (0 : Rat) ≤ ((min step d : Nat) : Rat) := by exact_mod_cast Nat.zero_le _
  have hi : 0 < (d : Rat)⁻¹ := Rat.inv_pos.mpr hd'
  have e : (d : Rat) * (d : Rat)⁻¹ = 1 := Rat.mul_inv_cancel _ (by grind)
  rw [Rat.div_def]
  refine ⟨Rat.mul_nonneg h0 (by grind), ?_⟩
  have := mul_up (x := (d : Rat)⁻¹) (by grind) h1
  grind

theorem ratio_nonneg (d step : Nat) (st : Bool) (hd : 0 < d) : 0 ≤ ratio d step st := by
  unfold ratio
  have hd' : (0 : Rat) < (d : Rat) := by exact_mod_cast hd
  split
  · exact_mod_cast Nat.zero_le _
  · rw [Rat.div_def]
    exact Rat.mul_nonneg (by exact_mod_cast Nat.zero_le _) (by have := Rat.inv_pos.mpr hd'; grind)

theorem inv_range {x : Rat} (h : 1 ≤ x) : 0 ≤ x⁻¹ ∧ x⁻¹ ≤ 1 := by
  have hi : 0 < x⁻¹ := Rat.inv_pos.mpr (by grind)
  have e : x * x⁻¹ = 1 := Rat.mul_inv_cancel _ (by grind)
  refine ⟨by grind, ?_⟩
  have := mul_up (x := x⁻¹) (by grind) h
  grind

theorem mul_range {u v : Rat} (hu : 0 ≤ u ∧ u ≤ 1) (hv : 0 ≤ v ∧ v ≤ 1) : 0 ≤ u * v ∧ u * v ≤ 1 := by
  refine ⟨Rat.mul_nonneg hu.1 hv.1, ?_⟩
  have := mul_up hu.1 hv.2
  grind

theorem pow_range {m : Rat} (hm : 0 ≤ m ∧ m ≤ 1) (i : Nat) : 0 ≤ m ^ i ∧ m ^ i ≤ 1 := by
  induction i with
  | zero => simp [Rat.pow_zero]; decide
  | succ i ih => rw [Rat.pow_succ]; exact mul_range ih hm

/-- How often a cycling polynomial decay has started over (at least 1), as in `raw`. -/
def laps (d step : Nat) : Nat := if step = 0 then 1 else (step + d - 1) / d

theorem laps_le (d step : Nat) (hd : 0 < d) : step ≤ d * laps d step ∧ 0 < laps d step := by
  unfold laps
  split
  · omega
  · rename_i h
    have h1 := Nat.div_add_mod (step + d - 1) d
    have h2 := Nat.mod_lt (step + d - 1) hd
    refine ⟨by omega, ?_⟩
    exact Nat.div_pos (by omega) hd

theorem quot_range (a b : Nat) (hb : 0 < b) (h : a ≤ b) : 0 ≤ (a : Rat) / (b : Rat) ∧ (a : Rat) / (b : Rat) ≤ 1 := by
  have := part_range b a hb
  unfold part at this
  rwa [Nat.min_eq_left h] at this

/-- `x0 * u` for a factor between `a` and `b`. -/
theorem scaled_range {x0 u a b : Rat} (h : a ≤ u ∧ u ≤ b) :
    (0 ≤ x0 → x0 * a ≤ x0 * u ∧ x0 * u ≤ x0 * b) ∧ (x0 ≤ 0 → x0 * b ≤ x0 * u ∧ x0 * u ≤ x0 * a) :=
  ⟨fun hx => ⟨mul_up hx h.1, mul_up hx h.2⟩, fun hx => ⟨mul_down hx h.2, mul_down hx h.1⟩⟩

/-! ## Range of the plain decay -/

theorem cosHalf_range {o : Oracle} (ho : Lawful o) (x : Rat) : 0 ≤ (1 + o.cos x) / 2 ∧ (1 + o.cos x) / 2 ≤ 1 := by
  have := ho.cos_ge x
  have := ho.cos_le x
  constructor <;> grind

theorem mix_range {al u : Rat} (ha : 0 ≤ al ∧ al ≤ 1) (hu : 0 ≤ u ∧ u ≤ 1) : al ≤ (1 - al) * u + al ∧ (1 - al) * u + al ≤ 1 := by
  have h := (scaled_range (x0 := 1 - al) hu).1 (by grind)
  constructor <;> grind

theorem raw_range {o : Oracle} (ho : Lawful o) (dec : Decay) (hdec : dec.Ordinary) (hv : valid dec = true) (x0 : Rat) (d step : Nat)
    (hd : 0 < d) {lo hi : Rat} (h : rawBounds dec x0 = some (lo, hi)) :
    lo ≤ raw o dec x0 d step ∧ raw o dec x0 d step ≤ hi := by
  cases dec with
  | cosine al =>
    simp only [rawBounds] at h
    split at h
    case isFalse => cases h
    rename_i ha
    have key := scaled_range (x0 := x0) (mix_range ha (cosHalf_range ho (part d step)))
    simp only [raw]
    split at h <;> cases h
    · have := key.1 (by assumption); grind
    · have := key.2 (by grind); grind
  | cosineRestarts t m al =>
    simp only [rawBounds] at h
    split at h
    case isFalse => cases h
    rename_i ha
    simp only [raw]
    generalize (if t = 1 then step / d else o.restarts t ((step : Rat) / (d : Rat))) = i
    generalize (if t = 1 then (step : Rat) / (d : Rat) - (i : Rat) else ((step : Rat) / (d : Rat) - (1 - t ^ i) / (1 - t)) / t ^ i) = c
    have key := scaled_range (x0 := x0) (mix_range ha (mul_range (pow_range hdec i) (cosHalf_range ho c)))
    split at h <;> cases h
    · have := key.1 (by assumption); grind
    · have := key.2 (by grind); grind
  | exponential r st =>
    simp only [rawBounds] at h
    split at h
    case isFalse => cases h
    rename_i hr
    simp only [raw]
    have hq := ratio_nonneg d step st hd
    split at h
    · cases h
      rename_i h1
      rw [h1, ho.one_pow]; grind
    · have key := scaled_range (x0 := x0) ⟨ho.pow_nonneg _ _ hr.1 hr.2 hq, ho.pow_le_one _ _ hr.1 hr.2 hq⟩
      split at h <;> cases h
      · have := key.1 (by assumption); grind
      · have := key.2 (by grind); grind
  | inverseTime r st =>
    simp only [rawBounds] at h
    split at h
    case isFalse => cases h
    rename_i hr
    simp only [raw]
    have hq := ratio_nonneg d step st hd
    rw [if_neg hdec] at h
    have hp := Rat.mul_nonneg hr.1 hq
    have key := scaled_range (x0 := x0) (inv_range (x := 1 + r * ratio d step st) (by grind))
    rw [Rat.div_def]
    split at h <;> cases h
    · have := key.1 (by assumption); grind
    · have := key.2 (by grind); grind
  | linearCosine n al be =>
    simp only [rawBounds] at h
    split at h
    case isFalse => cases h
    rename_i ha
    simp only [raw]
    have hc := part_range d step hd
    have hu := cosHalf_range ho (2 * n * part d step)
    generalize (1 + o.cos (2 * n * part d step)) / 2 = u at *
    have k1 := (scaled_range (x0 := al + (1 - part d step)) hu).1 (by grind)
    have key := scaled_range (x0 := x0) (u := (al + (1 - part d step)) * u + be) (a := be) (b := 1 + al + be) (by constructor <;> grind)
    split at h <;> cases h
    · have := key.1 (by assumption); grind
    · have := key.2 (by grind); grind
  | linearCosineNoisy n al be => exact hdec.elim
  | polynomial f pw cyc =>
    have hpw : 0 ≤ pw := by simpa [valid] using hv
    have hq : 0 ≤ (if cyc then (step : Rat) / ((d * laps d step : Nat) : Rat) else part d step) ∧
        (if cyc then (step : Rat) / ((d * laps d step : Nat) : Rat) else part d step) ≤ 1 := by
      have hl := laps_le d step hd
      split
      · exact quot_range _ _ (Nat.mul_pos hd hl.2) hl.1
      · exact part_range d step hd
    simp only [raw]
    rw [← laps]
    generalize (if cyc then (step : Rat) / ((d * laps d step : Nat) : Rat) else part d step) = q at *
    simp only [rawBounds] at h
    split at h
    · cases h
      rename_i h0
      rw [h0, ho.pow_zero]; grind
    · have key := scaled_range (x0 := x0 - f) ⟨ho.pow_nonneg (1 - q) pw (by grind) (by grind) hpw, ho.pow_le_one (1 - q) pw (by grind) (by grind) hpw⟩
      split at h <;> cases h
      · have := key.1 (by grind); grind
      · have := key.2 (by grind); grind

end Verif.Param
