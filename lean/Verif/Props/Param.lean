import Verif.Param.Piece

/-!
# Properties of scheduled hyperparameters (C29, C30, C31)

The oracle `o` stands for cosine, real powers, the restart index and the noise; `Lawful o` lists what is assumed of them.
-/

namespace Verif.Props.Param

open Verif.Param

/-! ## C29: announced range, start, limit -/

/-- C29: at every step the value exists and lies between the announced minimum and maximum. Missing: `inverse` with the
epsilon of the code (see `range_inverse_partial`), and the schedules outside `Ordinary`. -/
theorem decaying_range_partial {o : Oracle} (ho : Lawful o) (p : Param) (eps mn mx : Rat) (hord : p.decay.Ordinary)
    (hv : valid p.decay = true) (hinv : p.inverse = false ∨ eps = 0) (hmn : p.minValue eps = some mn) (hmx : p.maxValue = some mx)
    (step : Nat) : ∃ v, p.value o eps step = some v ∧ mn ≤ v ∧ v ≤ mx := by
  obtain ⟨b, hb, _⟩ := Option.map_eq_some_iff.mp hmn
  obtain ⟨lo, hi, hr⟩ := bounds_raw hb
  have hx := raw_range ho p.decay hord hv p.initial (p.numSteps + 1) step (by omega) hr
  have hd := post_defined (eps := eps) hb hr hx
  obtain ⟨v, hpv⟩ := Option.isSome_iff_exists.mp hd
  refine ⟨v, ?_, post_range hinv hr hx hmn hmx hpv⟩
  simp only [Param.value, hv, if_true, hpv]

example : (Param.value ⟨.polynomial 1 2 true, 3, 5, false, false, -2, false⟩ sample 0 2 = some (-4)) ∧
    (Param.minValue ⟨.polynomial 1 2 true, 3, 5, false, false, -2, false⟩ 0 = some (-10)) ∧
    (Param.maxValue ⟨.polynomial 1 2 true, 3, 5, false, false, -2, false⟩ = some (-2)) := by decide +kernel

/-- C29: inverted schedules of float type without scale stay below the announced maximum, and fall below the announced minimum by
at most epsilon times its square. -/
theorem range_inverse_partial {o : Oracle} (ho : Lawful o) (p : Param) (eps mn mx : Rat) (hord : p.decay.Ordinary)
    (hv : valid p.decay = true) (hinv : p.inverse = true) (he : 0 < eps) (hs : p.scale = 1) (hf : p.isInt = false)
    (hmn : p.minValue eps = some mn) (hmx : p.maxValue = some mx) (step : Nat) :
    ∃ v, p.value o eps step = some v ∧ mn - eps * (mn * mn) ≤ v ∧ v ≤ mx := by
  obtain ⟨b, hb, hbm⟩ := Option.map_eq_some_iff.mp hmn
  obtain ⟨c, hc, hcm⟩ := Option.map_eq_some_iff.mp hmx
  obtain ⟨lo, hi, hr⟩ := bounds_raw hb
  have hx := raw_range ho p.decay hord hv p.initial (p.numSteps + 1) step (by omega) hr
  have hd := post_defined (eps := eps) hb hr hx
  obtain ⟨v, hpv⟩ := Option.isSome_iff_exists.mp hd
  refine ⟨v, by simp only [Param.value, hv, if_true, hpv], ?_⟩
  obtain ⟨-, hvv⟩ := post_parts hpv
  obtain ⟨lo1, hi1, hr1, -, -, hb'⟩ := bounds_parts hb
  obtain ⟨lo2, hi2, hr2, -, hpos, hc'⟩ := bounds_parts hc
  rw [hr] at hr1 hr2
  cases hr1; cases hr2
  have hfl := flip_range (inc := p.increasing) hx
  generalize (if p.increasing then (1 - hi, 1 - lo) else (lo, hi)) = q at *
  generalize (if p.increasing then 1 - raw o p.decay p.initial (p.numSteps + 1) step else raw o p.decay p.initial (p.numSteps + 1) step) = y at *
  simp only [hinv, hs, hf, if_true, toDtype, Bool.false_eq_true, if_false, scalePair, scaleVal] at *
  have h0 : 0 < q.1 := by simpa using hpos
  have hy : 0 < y := by grind
  rw [if_pos hy] at hvv
  subst hvv
  subst hb'
  subst hc'
  simp only at hbm hcm
  subst hbm
  subst hcm
  have h2 : 0 < q.2 := by grind
  refine ⟨?_, inv_antitone h0 (by grind)⟩
  have a1 := inv_antitone (x := y + eps) (y := q.2 + eps) (by grind) (by grind)
  have a2 : 1 / q.2 - eps * (1 / q.2 * (1 / q.2)) ≤ 1 / (q.2 + eps) := by
    rw [Rat.div_def, Rat.div_def, Rat.one_mul, Rat.one_mul]
    have e1 : q.2 * q.2⁻¹ = 1 := Rat.mul_inv_cancel _ (by grind)
    have e2 : (q.2 + eps) * (q.2 + eps)⁻¹ = 1 := Rat.mul_inv_cancel _ (by grind)
    have p1 : 0 < q.2⁻¹ := Rat.inv_pos.mpr h2
    have p2 : 0 < (q.2 + eps)⁻¹ := Rat.inv_pos.mpr (by grind)
    have p3 := Rat.mul_nonneg (Rat.mul_nonneg (Rat.mul_nonneg (show 0 ≤ eps by grind) (show 0 ≤ eps by grind))
      (Rat.mul_nonneg (show 0 ≤ q.2⁻¹ by grind) (show 0 ≤ q.2⁻¹ by grind))) (show 0 ≤ (q.2 + eps)⁻¹ by grind)
    generalize q.2⁻¹ = z at *
    generalize (q.2 + eps)⁻¹ = w at *
    have key : w - (z - eps * (z * z)) = eps * eps * (z * z) * w := by
      have k1 : z - w = eps * (z * w) := by grind
      grind
    grind
  grind

example : Param.minValue ⟨.polynomial 1 1 false, 1, 2, false, true, 1, false⟩ (1 / 1000000) = some (1 / 2) ∧
    Param.maxValue ⟨.polynomial 1 1 false, 1, 2, false, true, 1, false⟩ = some 1 := by decide +kernel

/-- C29: the value at step 0 is the initial value, after the configured `increasing`, `inverse` and `scale`. Missing: the linear
cosine schedules. -/
theorem decaying_start_partial {o : Oracle} (ho : Lawful o) (p : Param) (eps : Rat) (hst : p.decay.StartsAtInitial)
    (hv : valid p.decay = true) : p.value o eps 0 = post p eps p.initial := by
  simp only [Param.value, hv, if_true, raw_zero ho p.decay hst]

/-- C29: without these options it is the initial value itself. -/
theorem decaying_start_plain_partial {o : Oracle} (ho : Lawful o) (p : Param) (eps : Rat) (hst : p.decay.StartsAtInitial)
    (hv : valid p.decay = true) (h1 : p.increasing = false) (h2 : p.inverse = false) (h3 : p.scale = 1)
    (hint : p.isInt = true → ∃ z : Int, p.initial = z) : p.value o eps 0 = some p.initial := by
  rw [decaying_start_partial ho p eps hst hv]
  simp only [post, h1, h2, h3, Bool.false_eq_true, false_and, if_false, if_true, toDtype]
  split
  · rename_i hi
    obtain ⟨z, hz⟩ := hint hi
    rw [hz, trunc_int]
  · rfl

example : Param.value ⟨.cosineRestarts 2 1 0, 3, 5, false, false, 1, true⟩ sample 0 0 = some 5 := by decide +kernel

/-- C29: the announced final value of a float schedule is its limit. Missing: `inverse` (off by epsilon), int type (truncated
before the limit is reached), schedules outside `Settles`; nothing is announced for the cosine schedules. -/
theorem decaying_limit_partial {o : Oracle} (ho : Lawful o) (p : Param) (eps mn l : Rat) (hset : p.decay.Settles)
    (hord : p.increasing = true → p.decay.Ordinary) (hv : valid p.decay = true) (hinv : p.inverse = false) (hf : p.isInt = false)
    (hmn : p.minValue eps = some mn) (hl : p.finalValue = some l) : TendsTo (p.value o eps) l := by
  obtain ⟨b, hb, _⟩ := Option.map_eq_some_iff.mp hmn
  obtain ⟨lo, hi, hr, hinc, -, -⟩ := bounds_parts hb
  have hnr : ∀ t m al, p.decay ≠ .cosineRestarts t m al := by
    intro t m al he
    simp only [Param.finalValue, he] at hl
    cases hl
  have hrate : ∀ r st, p.decay = .exponential r st ∨ p.decay = .inverseTime r st → r ≤ 1 := by
    intro r st he
    rcases he with he | he <;>
    · rw [he] at hr
      simp only [rawBounds] at hr
      split at hr
      · rename_i h; exact h.2
      · cases hr
  have hraw := raw_limit ho p.decay hset hv p.initial (p.numSteps + 1) (by omega) hrate hnr
  have hlim := scale_limit (flip_limit hraw p.increasing) p.scale
  have hfin : l = scaleVal p.scale (if p.increasing then 1 - rawFinal p.decay p.initial else rawFinal p.decay p.initial) := by
    cases hdec : p.decay <;> simp only [Param.finalValue, hdec, rawFinal, hinv, hf, toDtype, scaleVal] at hl ⊢ <;> grind
  rw [hfin]
  intro ε hε
  obtain ⟨n, hn⟩ := hlim ε hε
  refine ⟨n, fun k hk => ⟨_, ?_, hn k hk⟩⟩
  have hrange : p.increasing = true → 0 ≤ raw o p.decay p.initial (p.numSteps + 1) k ∧ raw o p.decay p.initial (p.numSteps + 1) k ≤ 1 := by
    intro hi'
    have := raw_range ho p.decay (hord hi') hv p.initial (p.numSteps + 1) k (by omega) hr
    have := hinc hi'
    grind
  simp only [Param.value, hv, if_true, post, hinv, hf, toDtype, Bool.false_eq_true, if_false]
  rw [if_neg (fun h => h.2 (hrange h.1))]
  rfl

example : Param.finalValue ⟨.exponential (1 / 2) true, 3, 1, true, false, 3, false⟩ = some 3 ∧
    Param.minValue ⟨.exponential (1 / 2) true, 3, 1, true, false, 3, false⟩ 0 = some 0 ∧
    Param.value ⟨.exponential (1 / 2) true, 3, 1, true, false, 3, false⟩ sample 0 9 = some (9 / 4) := by decide +kernel

/-- C29: a schedule announced as constant has that value at every step. Missing: as for `decaying_range_partial`. -/
theorem decaying_constant_partial {o : Oracle} (ho : Lawful o) (p : Param) (eps c : Rat) (hord : p.decay.Ordinary)
    (hv : valid p.decay = true) (hinv : p.inverse = false ∨ eps = 0) (hc : p.isConstant eps = some (some c)) (step : Nat) :
    p.value o eps step = some c := by
  unfold Param.isConstant at hc
  split at hc
  · rename_i lo hi hmn hmx
    split at hc
    · split at hc
      · split at hc
        · rename_i h1 v _ h2
          obtain ⟨w, hw, hlo, hhi⟩ := decaying_range_partial ho p eps lo hi hord hv hinv hmn hmx step
          rw [hw]
          cases hc
          grind
        · cases hc
      · cases hc
    · cases hc
  · cases hc

example : Param.isConstant ⟨.exponential 1 false, 3, 7, false, false, 2, true⟩ 0 = some (some 14) := by decide +kernel

/-- C29: whenever the settings are in the documented ranges, a plain schedule announces a minimum and a maximum. -/
theorem decaying_announced (p : Param) (eps : Rat) (h1 : p.increasing = false) (h2 : p.inverse = false)
    (hd : match p.decay with
      | .cosine al | .cosineRestarts _ _ al => 0 ≤ al ∧ al ≤ 1
      | .exponential r _ | .inverseTime r _ => 0 ≤ r ∧ r ≤ 1
      | .linearCosine _ al be | .linearCosineNoisy _ al be => 0 ≤ al ∧ al ≤ 1 ∧ 0 ≤ be ∧ be ≤ 1
      | .polynomial _ _ _ => True) : (p.minValue eps).isSome = true ∧ p.maxValue.isSome = true := by
  have key : ∃ lo hi, rawBounds p.decay p.initial = some (lo, hi) ∧ lo ≤ hi := by
    cases hdec : p.decay with
    | cosine al | cosineRestarts t m al =>
      rw [hdec] at hd
      simp only [rawBounds, if_pos hd]
      have := scaled_range (x0 := p.initial) (u := al) (a := al) (b := 1) ⟨by grind, hd.2⟩
      split
      · exact ⟨_, _, rfl, by have := this.1 (by assumption); grind⟩
      · exact ⟨_, _, rfl, by have := this.2 (by grind); grind⟩
    | exponential r st | inverseTime r st =>
      rw [hdec] at hd
      simp only [rawBounds, if_pos hd]
      split
      · exact ⟨_, _, rfl, by grind⟩
      · split <;> exact ⟨_, _, rfl, by grind⟩
    | linearCosine n al be | linearCosineNoisy n al be =>
      rw [hdec] at hd
      simp only [rawBounds, if_pos hd]
      have := scaled_range (x0 := p.initial) (u := be) (a := be) (b := 1 + al + be) ⟨by grind, by grind⟩
      split
      · exact ⟨_, _, rfl, (this.1 (by assumption)).2⟩
      · exact ⟨_, _, rfl, (this.2 (by grind)).1⟩
    | polynomial f pw c =>
      simp only [rawBounds]
      split
      · exact ⟨_, _, rfl, by grind⟩
      · split <;> exact ⟨_, _, rfl, by grind⟩
  obtain ⟨lo, hi, hr, hle⟩ := key
  constructor <;> simp [Param.minValue, Param.maxValue, bounds, hr, hle, h1, h2]

example : (Param.minValue ⟨.cosine (1 / 2), 3, -2, false, false, 1, false⟩ 0) = some (-2) := by decide +kernel

/-- C29: an int schedule is the float schedule with the fraction cut off. -/
theorem int_schedule_truncates (o : Oracle) (p : Param) (eps : Rat) (step : Nat) (v x : Rat) (hi : p.isInt = true)
    (hv : p.value o eps step = some v) (hx : Param.value { p with isInt := false } o eps step = some x) :
    (∃ z : Int, v = z) ∧ (0 ≤ x → 0 ≤ v ∧ v ≤ x ∧ x < v + 1) ∧ (x ≤ 0 → v ≤ 0 ∧ x ≤ v ∧ v - 1 < x) := by
  have hvx : v = trunc x := by
    simp only [Param.value] at hv hx
    split at hv
    · rename_i hval
      rw [if_pos hval] at hx
      obtain ⟨-, e1⟩ := post_parts hv
      obtain ⟨-, e2⟩ := post_parts hx
      simp only [toDtype, hi, if_true, Bool.false_eq_true, if_false] at e1 e2
      rw [e1, e2]
    · cases hv
  subst hvx
  unfold trunc
  split
  · rename_i h0
    have a1 : ((x.floor : Int) : Rat) ≤ x := Rat.floor_le _
    have a2 : x < ((x.floor : Int) : Rat) + 1 := by
      have := Rat.lt_floor (x := x)
      grind
    have a3 : 0 ≤ x.floor := Rat.le_floor_iff.mpr (by grind)
    have a4 : (0 : Rat) ≤ ((x.floor : Int) : Rat) := by exact_mod_cast a3
    exact ⟨⟨_, rfl⟩, by grind, by grind⟩
  · rename_i h0
    have a1 : x ≤ ((x.ceil : Int) : Rat) := Rat.le_ceil
    have a2 : x.ceil ≤ 0 := Rat.ceil_le_iff.mpr (by grind)
    have a3 : ((x.ceil : Int) : Rat) ≤ 0 := by exact_mod_cast a2
    have a4 : ((x.ceil : Int) : Rat) - 1 < x := by
      have h1 : ¬ x ≤ ((x.ceil - 1 : Int) : Rat) := fun h => by
        have := Rat.ceil_le_iff.mpr h
        omega
      have h2 : ((x.ceil - 1 : Int) : Rat) = ((x.ceil : Int) : Rat) - 1 := by exact_mod_cast rfl
      grind
    exact ⟨⟨_, rfl⟩, by grind, by grind⟩

example : Param.value ⟨.polynomial 0 1 false, 1, -3, false, false, 1, true⟩ sample 0 1 = some (-1) := by decide +kernel

/-- C29: one period multiplies an exponential schedule by its rate once more, and divides an inverse time schedule. -/
theorem periods {o : Oracle} (x0 rate : Rat) (d k : Nat) (hd : 0 < d) (staircase : Bool) :
    raw o (.exponential rate staircase) x0 d (d * k) = x0 * o.pow rate k ∧
    raw o (.inverseTime rate staircase) x0 d (d * k) = x0 / (1 + rate * k) := by
  have h : ratio d (d * k) staircase = k := by
    unfold ratio
    have hd' : (0 : Rat) < (d : Rat) := by exact_mod_cast hd
    split
    · rw [Nat.mul_div_cancel_left k hd]
    · have e : ((d * k : Nat) : Rat) = (d : Rat) * (k : Rat) := by exact_mod_cast rfl
      have e1 : (d : Rat) * (d : Rat)⁻¹ = 1 := Rat.mul_inv_cancel _ (by grind)
      rw [e, Rat.div_def]
      have : (d : Rat) * (k : Rat) * (d : Rat)⁻¹ = ((d : Rat) * (d : Rat)⁻¹) * (k : Rat) := by grind
      rw [this, e1, Rat.one_mul]
  simp only [raw, h, and_self]

/-- C29: restarts with `t_mul = 1` and `m_mul = 1` repeat the same period. -/
theorem restarts_periodic (o : Oracle) (x0 alpha : Rat) (d step : Nat) (hd : 0 < d) :
    raw o (.cosineRestarts 1 1 alpha) x0 d (step + d) = raw o (.cosineRestarts 1 1 alpha) x0 d step := by
  have hd' : (0 : Rat) < (d : Rat) := by exact_mod_cast hd
  have hp : ∀ i : Nat, (1 : Rat) ^ i = 1 := fun i => by
    induction i with
    | zero => exact Rat.pow_zero _
    | succ i ih => rw [Rat.pow_succ, ih]; grind
  have hi : (step + d) / d = step / d + 1 := Nat.add_div_right step hd
  have hc : ((step + d : Nat) : Rat) / (d : Rat) - ((step / d + 1 : Nat) : Rat) = (step : Rat) / (d : Rat) - ((step / d : Nat) : Rat) := by
    have e1 : (d : Rat) * (d : Rat)⁻¹ = 1 := Rat.mul_inv_cancel _ (by grind)
    have e2 : ((step + d : Nat) : Rat) = (step : Rat) + (d : Rat) := by exact_mod_cast rfl
    have e3 : ((step / d + 1 : Nat) : Rat) = ((step / d : Nat) : Rat) + 1 := by exact_mod_cast rfl
    rw [e2, e3, Rat.div_def, Rat.div_def, Rat.add_mul, e1]
    generalize ((step / d : Nat) : Rat) = w
    grind
  simp only [raw, if_true, hi, hc, hp]

/-- C29: a cycling polynomial schedule reaches its final value at the end of every period. -/
theorem cycle_reaches_final {o : Oracle} (ho : Lawful o) (x0 final power : Rat) (hp : 0 < power) (d k : Nat) (hd : 0 < d) (hk : 0 < k) :
    raw o (.polynomial final power true) x0 d (d * k) = final := by
  have hz : o.pow 0 power = 0 := by
    have h0 := ho.pow_nonneg 0 power (by grind) (by grind) (by grind)
    by_cases h : 0 < o.pow 0 power
    · obtain ⟨δ, hδ, hs⟩ := ho.pow_small power (o.pow 0 power / 2) hp (by grind)
      have := hs 0 (by grind) (by grind)
      grind
    · grind
  have hdk : 0 < d * k := Nat.mul_pos hd hk
  have hl : (if d * k = 0 then 1 else (d * k + d - 1) / d) = k := by
    rw [if_neg (by omega), Nat.add_sub_assoc (by omega), Nat.mul_add_div hd, Nat.div_eq_of_lt (by omega)]
    rfl
  have hq : ((d * k : Nat) : Rat) / ((d * k : Nat) : Rat) = 1 := by
    have : (0 : Rat) < ((d * k : Nat) : Rat) := by exact_mod_cast hdk
    rw [Rat.div_def]
    exact Rat.mul_inv_cancel _ (by grind)
  have h1 : (1 - 1 : Rat) = 0 := by grind
  simp only [raw, hl, if_true, hq, h1, hz]
  grind

example : raw sample (.polynomial 1 2 true) 5 4 8 = 1 ∧ raw sample (.exponential (1 / 2) true) 8 4 12 = 1 ∧
    raw sample (.cosineRestarts 1 1 (1 / 2)) 8 4 13 = raw sample (.cosineRestarts 1 1 (1 / 2)) 8 4 1 := by decide +kernel

/-! ### Violations -/

/-- Inverse time decay with rate 1 is announced as constant but decays. -/
theorem inverse_time_constant_violation : ∃ p : Param, ∃ c : Rat, p.isConstant (1 / 1000000) = some (some c) ∧
    ∀ o, ∃ v, p.value o (1 / 1000000) 2 = some v ∧ v < c :=
  ⟨⟨.inverseTime 1 false, 1, 1, false, false, 1, false⟩, 1, by decide +kernel, fun _ => ⟨1 / 2, by simp only [Param.value, valid, raw, ratio]; decide +kernel, by decide +kernel⟩⟩

/-- Inverse time decay with rate 0 announces the final value 0 but never changes. -/
theorem inverse_time_final_violation : ∃ p : Param, p.finalValue = some 0 ∧ ∀ o step, p.value o 0 step = some 1 := by
  refine ⟨⟨.inverseTime 0 false, 1, 1, false, false, 1, false⟩, by decide +kernel, fun o step => ?_⟩
  have h : (1 : Rat) / (1 + 0 * ratio (1 + 1) step false) = 1 := by
    have : (1 + 0 * ratio (1 + 1) step false : Rat) = 1 := by grind
    rw [this]; decide +kernel
  simp only [Param.value, valid, raw, h]
  decide +kernel

/-- An inverted schedule falls below the announced minimum, because of the epsilon added before the reciprocal. -/
theorem inverse_minimum_violation : ∃ p : Param, ∃ mn v : Rat, p.minValue (1 / 1000000) = some mn ∧
    p.value sample (1 / 1000000) 0 = some v ∧ v < mn :=
  ⟨⟨.polynomial 1 1 false, 1, 2, false, true, 1, false⟩, 1 / 2, 1000000 / 2000001, by decide +kernel, by decide +kernel, by decide +kernel⟩

/-- No final value is ever announced for cosine schedules, so `is_constant` fails when the range is a single value. -/
theorem cosine_final_violation : (∀ p : Param, ∀ al, p.decay = .cosine al → p.finalValue = none) ∧
    ∃ p : Param, p.minValue 0 = some 3 ∧ p.maxValue = some 3 ∧ p.isConstant 0 = none := by
  refine ⟨fun p al h => ?_, ⟨.cosine 1, 1, 3, false, false, 1, false⟩, by decide +kernel, by decide +kernel, by decide +kernel⟩
  simp only [Param.finalValue, h]

/-- Restarts with `m_mul > 1` exceed the announced maximum. -/
theorem restarts_maximum_violation : ∃ p : Param, ∃ mx : Rat, p.maxValue = some mx ∧
    ∀ o, Lawful o → ∃ v, p.value o 0 2 = some v ∧ mx < v := by
  refine ⟨⟨.cosineRestarts 1 2 0, 1, 1, false, false, 1, false⟩, 1, by decide +kernel, fun o ho => ⟨2, ?_, by decide +kernel⟩⟩
  have h : ((2 : Nat) : Rat) / ((1 + 1 : Nat) : Rat) - ((2 / (1 + 1) : Nat) : Rat) = 0 := by decide +kernel
  simp only [Param.value, valid, raw, if_true, h, ho.cos_zero]
  decide +kernel

/-- The linear cosine schedule starts above its initial value. -/
theorem linear_cosine_start_violation : ∃ p : Param, ∀ o, Lawful o → ∃ v, p.value o 0 0 = some v ∧ p.initial < v := by
  refine ⟨⟨.linearCosine (1 / 2) 0 (1 / 1000), 1, 1, false, false, 1, false⟩, fun o ho => ⟨1001 / 1000, ?_, by decide +kernel⟩⟩
  have h : (2 * (1 / 2) * 0 : Rat) = 0 := by decide +kernel
  simp only [Param.value, valid, raw, part_zero, h, ho.cos_zero]
  decide +kernel

/-- With `alpha > 0` and a whole number of periods the linear cosine schedule does not reach its announced final value. -/
theorem linear_cosine_final_violation : ∃ p : Param, ∃ l : Rat, p.finalValue = some l ∧
    ∀ o, Lawful o → o.cos 2 = 1 → ∀ step, p.numSteps < step → ∃ v, p.value o 0 step = some v ∧ l < v := by
  refine ⟨⟨.linearCosine 1 (1 / 2) 0, 1, 1, false, false, 1, false⟩, 0, by decide +kernel, fun o ho h2 step hs => ⟨1 / 2, ?_, by decide +kernel⟩⟩
  have h : (2 * 1 * 1 : Rat) = 2 := by decide +kernel
  simp only [Param.value, valid, raw, part_full 2 step (by omega) hs, h, h2]
  decide +kernel

/-- Noise takes the schedule out of the announced range. -/
theorem noise_violation : ∃ p : Param, ∃ mx v : Rat, p.maxValue = some mx ∧ p.value sample 0 0 = some v ∧ mx < v :=
  ⟨⟨.linearCosineNoisy (1 / 2) 0 0, 1, 1, false, false, 1, false⟩, 1, 2, by decide +kernel, by decide +kernel, by decide +kernel⟩

/-- An int schedule announces the final value 1 but stays at 0, since every value below 1 is truncated. -/
theorem int_final_violation : ∃ p : Param, p.finalValue = some 1 ∧ p.minValue 0 = some 0 ∧ ∀ step, p.value sample 0 step = some 0 := by
  refine ⟨⟨.inverseTime (1 / 2) false, 1, 1, true, false, 1, true⟩, by decide +kernel, by decide +kernel, fun step => ?_⟩
  have hq := ratio_nonneg 2 step false (by omega)
  have hr : 1 ≤ 1 + 1 / 2 * ratio 2 step false := by grind
  have hi := inv_range hr
  have hp : 0 < (1 + 1 / 2 * ratio 2 step false)⁻¹ := Rat.inv_pos.mpr (by grind)
  simp only [Param.value, valid, raw, post, toDtype, Rat.div_def, Rat.one_mul] at hi hp ⊢
  generalize ((1 : Rat) + 2⁻¹ * ratio (1 + 1) step false)⁻¹ = z at *
  have h0 : (0 : Rat) ≤ 2⁻¹ := by decide +kernel
  have ht : trunc (1 - z) = 0 := by
    have hf : (1 - z).floor = 0 := by
      have a : 0 ≤ (1 - z).floor := Rat.le_floor_iff.mpr (by grind)
      have b : (((1 - z).floor : Int) : Rat) ≤ 1 - z := Rat.floor_le _
      have c : (((1 - z).floor : Int) : Rat) < ((1 : Int) : Rat) := by
        have : ((1 : Int) : Rat) = 1 := rfl
        grind
      have : (1 - z).floor < 1 := by exact_mod_cast c
      omega
    unfold trunc
    rw [if_pos (by grind), hf]; rfl
  simp [h0, hi, ht]

/-! ## C30: linear decay -/

/-- C30: a linear hyperparameter starts at its initial value. -/
theorem linear_start {o : Oracle} (ho : Lawful o) (n : Nat) (a b : Rat) (isInt : Bool) (eps : Rat)
    (hint : isInt = true → ∃ z : Int, a = z) : (Param.linear n a b isInt).value o eps 0 = some a := by
  rw [value_linear ho, part_zero]
  have : a + (b - a) * 0 = a := by grind
  rw [this, toDtype]
  split
  · rename_i hi
    obtain ⟨z, rfl⟩ := hint hi
    rw [trunc_int]
  · rfl

/-- C30: it moves monotonically from the initial towards the final value. -/
theorem linear_monotone {o : Oracle} (ho : Lawful o) (n : Nat) (a b : Rat) (isInt : Bool) (eps : Rat) (s t : Nat) (h : s ≤ t) :
    ∃ v w, (Param.linear n a b isInt).value o eps s = some v ∧ (Param.linear n a b isInt).value o eps t = some w ∧
      (a ≤ b → v ≤ w) ∧ (b ≤ a → w ≤ v) := by
  refine ⟨_, _, value_linear ho n a b isInt eps s, value_linear ho n a b isInt eps t, fun hab => cast_mono ?_, fun hab => cast_mono ?_⟩
  · have := mul_up (x := b - a) (by grind) (part_mono (n + 1) s t (by omega) h)
    grind
  · have := mul_down (x := b - a) (by grind) (part_mono (n + 1) s t (by omega) h)
    grind

/-- C30: it never overshoots (`toDtype` truncates the bounds of an int hyperparameter). -/
theorem linear_no_overshoot {o : Oracle} (ho : Lawful o) (n : Nat) (a b : Rat) (isInt : Bool) (eps : Rat) (step : Nat) :
    ∃ v, (Param.linear n a b isInt).value o eps step = some v ∧
      (a ≤ b → toDtype isInt a ≤ v ∧ v ≤ toDtype isInt b) ∧ (b ≤ a → toDtype isInt b ≤ v ∧ v ≤ toDtype isInt a) := by
  have hp := part_range (n + 1) step (by omega)
  have key := scaled_range (x0 := b - a) hp
  refine ⟨_, value_linear ho n a b isInt eps step, fun hab => ?_, fun hab => ?_⟩
  · have := key.1 (by grind)
    exact ⟨cast_mono (by grind), cast_mono (by grind)⟩
  · have := key.2 (by grind)
    exact ⟨cast_mono (by grind), cast_mono (by grind)⟩

/-- C30: it equals its final value from step `num_steps + 1` on. Missing: step `num_steps` itself, see
`linear_last_step_violation`. -/
theorem linear_final_partial {o : Oracle} (ho : Lawful o) (n : Nat) (a b : Rat) (isInt : Bool) (eps : Rat)
    (hint : isInt = true → ∃ z : Int, b = z) (step : Nat) (h : n < step) : (Param.linear n a b isInt).value o eps step = some b := by
  rw [value_linear ho, part_full (n + 1) step (by omega) h]
  have : a + (b - a) * 1 = b := by grind
  rw [this, toDtype]
  split
  · rename_i hi
    obtain ⟨z, rfl⟩ := hint hi
    rw [trunc_int]
  · rfl

example : (Param.linear 3 8 0 true).value sample 0 1 = some 6 ∧ (Param.linear 3 0 1 true).value sample 0 3 = some 0 ∧
    (Param.linear 3 0 1 true).value sample 0 4 = some 1 := by decide +kernel

/-- At step `num_steps` a float linear hyperparameter never equals its final value, unless it is constant: the schedule divides by
`num_steps + 1`. -/
theorem linear_last_step_violation {o : Oracle} (ho : Lawful o) (n : Nat) (a b : Rat) (hab : a ≠ b) (eps : Rat) :
    (Param.linear n a b false).value o eps n ≠ some b := by
  rw [value_linear ho]
  intro h
  simp only [toDtype, Bool.false_eq_true, if_false, Option.some.injEq] at h
  unfold part at h
  rw [Nat.min_eq_left (by omega), Rat.div_def] at h
  have hd : (0 : Rat) < ((n + 1 : Nat) : Rat) := by exact_mod_cast Nat.succ_pos n
  have e : ((n + 1 : Nat) : Rat) * ((n + 1 : Nat) : Rat)⁻¹ = 1 := Rat.mul_inv_cancel _ (by grind)
  have hc : ((n + 1 : Nat) : Rat) = (n : Rat) + 1 := by exact_mod_cast rfl
  have hi : 0 < ((n + 1 : Nat) : Rat)⁻¹ := Rat.inv_pos.mpr hd
  generalize ((n + 1 : Nat) : Rat)⁻¹ = z at *
  rw [hc] at e
  have hz : (b - a) * z = 0 := by grind
  rcases Rat.mul_eq_zero.mp hz with h | h
  · exact hab (by grind)
  · grind

/-! ## C31: piecewise constant -/

/-- C31: the value at a step is the one with the position `pieceIndex`. -/
theorem piecewise_value {α : Type} {bs : List Nat} {vs : List α} (hok : pieceOk bs vs.length = true) (step : Nat) :
    piecewise bs vs step = vs[pieceIndex bs step]? := piecewise_eq hok step

/-- C31: the position is `i` exactly if the boundaries before position `i` are passed and those from `i` on are not. -/
theorem piecewise_position {bs : List Nat} {n : Nat} (hok : pieceOk bs n = true) (step i : Nat) (hi : i < n) :
    pieceIndex bs step = i ↔ (∀ j b, j < i → bs[j]? = some b → b < step) ∧ (∀ j b, i ≤ j → bs[j]? = some b → step ≤ b) := by
  simp only [pieceOk, Bool.and_eq_true, decide_eq_true_eq] at hok
  exact pieceIndex_iff hok.1.2 step i (by omega)

/-- C31: it takes the value `i` at exactly the steps after boundary `i - 1` and up to boundary `i`, where the first value has
no lower and the last no upper boundary; "exactly" needs different values at different positions. -/
theorem piecewise_constant {α : Type} {bs : List Nat} {vs : List α} (hok : pieceOk bs vs.length = true) (step i : Nat) (v : α)
    (hv : vs[i]? = some v) :
    ((i = 0 ∨ ∃ b, bs[i - 1]? = some b ∧ b < step) → (i = bs.length ∨ ∃ b, bs[i]? = some b ∧ step ≤ b) → piecewise bs vs step = some v) ∧
    (vs.Nodup → piecewise bs vs step = some v →
      (i = 0 ∨ ∃ b, bs[i - 1]? = some b ∧ b < step) ∧ (i = bs.length ∨ ∃ b, bs[i]? = some b ∧ step ≤ b)) := by
  have hi : i < vs.length := (List.getElem?_eq_some_iff.mp hv).1
  have hpos := piecewise_position hok step i hi
  have hok' := hok
  simp only [pieceOk, Bool.and_eq_true, decide_eq_true_eq] at hok'
  obtain ⟨⟨hl, hs⟩, -⟩ := hok'
  have hmono : ∀ (j k b c : Nat), j ≤ k → bs[j]? = some b → bs[k]? = some c → b ≤ c := by
    intro j k b c hjk hb hc
    rcases Nat.lt_or_ge j k with h | h
    · obtain ⟨hj, rfl⟩ := List.getElem?_eq_some_iff.mp hb
      obtain ⟨hk, rfl⟩ := List.getElem?_eq_some_iff.mp hc
      exact List.pairwise_iff_getElem.mp hs j k hj hk h
    · have : j = k := by omega
      subst this
      rw [hb] at hc; cases hc; exact Nat.le_refl _
  rw [piecewise_eq hok]
  constructor
  · intro hlo hhi
    have : pieceIndex bs step = i := hpos.mpr ⟨fun j b hj hb => by
      rcases hlo with h | ⟨c, hc, hcs⟩
      · omega
      · have := hmono j (i - 1) b c (by omega) hb hc
        omega, fun j b hj hb => by
      rcases hhi with h | ⟨c, hc, hcs⟩
      · have := (List.getElem?_eq_some_iff.mp hb).1
        omega
      · have := hmono i j c b hj hc hb
        omega⟩
    rw [this, hv]
  · intro hn hp
    have hidx : pieceIndex bs step = i := by
      obtain ⟨h1, e1⟩ := List.getElem?_eq_some_iff.mp hp
      obtain ⟨h2, e2⟩ := List.getElem?_eq_some_iff.mp hv
      exact (List.getElem_inj hn).mp (e1.trans e2.symm)
    obtain ⟨ha, hb⟩ := hpos.mp hidx
    refine ⟨?_, ?_⟩
    · rcases Nat.eq_zero_or_pos i with h | h
      · exact Or.inl h
      · right
        have hlt : i - 1 < bs.length := by omega
        exact ⟨bs[i - 1], List.getElem?_eq_getElem hlt, ha (i - 1) _ (by omega) (List.getElem?_eq_getElem hlt)⟩
    · rcases Nat.lt_or_ge i bs.length with h | h
      · right
        exact ⟨bs[i], List.getElem?_eq_getElem h, hb i _ (Nat.le_refl _) (List.getElem?_eq_getElem h)⟩
      · left; omega

/-- C31: some value is taken at every step, so no step is left to the default of the Keras schedule. -/
theorem piecewise_total {α : Type} {bs : List Nat} {vs : List α} (hok : pieceOk bs vs.length = true) (step : Nat) :
    ∃ v ∈ vs, piecewise bs vs step = some v := by
  rw [piecewise_eq hok]
  have h1 : pieceIndex bs step ≤ bs.length := List.countP_le_length
  simp only [pieceOk, Bool.and_eq_true, decide_eq_true_eq] at hok
  have hlt : pieceIndex bs step < vs.length := by omega
  exact ⟨vs[pieceIndex bs step], List.getElem_mem hlt, List.getElem?_eq_getElem hlt⟩

/-- C31: after the last boundary the value is the announced final value, `values[-1]`. -/
theorem piecewise_final {α : Type} {bs : List Nat} {vs : List α} (hok : pieceOk bs vs.length = true) (step : Nat)
    (h : ∀ b ∈ bs, b < step) : piecewise bs vs step = vs.getLast? := by
  rw [piecewise_eq hok, pieceIndex_all h, List.getLast?_eq_getElem?]
  simp only [pieceOk, Bool.and_eq_true, decide_eq_true_eq] at hok
  rw [hok.1.1]; rfl

example : pieceOk [2, 5, 5, 9] 5 = true ∧ (List.range 12).map (piecewise [2, 5, 5, 9] ['a', 'b', 'c', 'd', 'e']) =
    [some 'a', some 'a', some 'a', some 'b', some 'b', some 'b', some 'd', some 'd', some 'd', some 'd', some 'e', some 'e'] := by
  decide +kernel

end Verif.Props.Param
