import Verif.Cart.Motion

/-!
# The constructor
-/

namespace Verif.Cart

variable {K : Type} [Field K] [LinearOrder K] [IsStrictOrderedRing K]

theorem check_of {a : Arg K} (h : a.Positive) : a.check = .ok (a.lo, a.hi) := by
  cases a with
  | value x => rw [Arg.check, if_pos (show 0 < x from h)]; rfl
  | range a b => rw [Arg.check, if_pos (show 0 < a ∧ a < b from h)]; rfl

theorem check_error {a : Arg K} (h : ¬ a.Positive) : a.check = .error .assertion := by
  cases a with
  | value x => rw [Arg.check, if_neg (show ¬ 0 < x from h)]
  | range a b => rw [Arg.check, if_neg (show ¬ (0 < a ∧ a < b) from h)]

theorem check_eq {a : Arg K} {r : K × K} (h : a.check = .ok r) : r = (a.lo, a.hi) := by
  rw [check_of (check_ok h).2.2.1] at h
  exact ((Except.ok.injEq _ _).mp h).symm

theorem positive_ends {a : Arg K} (h : a.Positive) : 0 < a.lo ∧ a.lo ≤ a.hi := by
  cases a with
  | value x => exact ⟨h, le_rfl⟩
  | range a b => exact ⟨h.1, h.2.le⟩

theorem has_ends {a : Arg K} {x : K} : a.has x ↔ a.lo ≤ x ∧ x ≤ a.hi := by
  cases a with
  | value y => exact ⟨fun h => ⟨ge_of_eq h, le_of_eq h⟩, fun h => le_antisymm h.2 h.1⟩
  | range a b => exact Iff.rfl

/-- Every number of a range may be drawn. -/
theorem uniform_onto {a b x : K} (h : a ≤ x ∧ x ≤ b) : ∃ u, unit u ∧ uniform a b u = x := by
  rcases eq_or_lt_of_le (h.1.trans h.2) with e | e
  · refine ⟨0, ⟨le_rfl, zero_le_one⟩, ?_⟩
    rw [uniform, mul_zero, add_zero]
    exact le_antisymm h.1 (e ▸ h.2)
  · have hd : 0 < b - a := sub_pos.mpr e
    refine ⟨(x - a) / (b - a), ⟨div_nonneg (sub_nonneg.mpr h.1) hd.le, (div_le_one hd).mpr (by linarith [h.2])⟩, ?_⟩
    rw [uniform, mul_div_cancel₀ _ hd.ne']
    ring

theorem divide_ok {x y : K} (h : y ≠ 0) : divide x y = .ok (x / y) := by rw [divide, if_neg h]

theorem angleAcc_ok {f g T l m : K} (hT : 0 < T) (hl : 0 < l) (h : 4 / 3 * T - m ≠ 0) :
    angleAcc f g T l m = .ok (uprightAcc (f * g) T l m) := by
  have hr : 4 / 3 - m / T ≠ 0 := by
    intro e
    apply h
    field_simp at e
    linear_combination e / 3
  rw [angleAcc, divide_ok hT.ne']
  simp only [divide_ok hl.ne', divide_ok hT.ne', divide_ok hr, uprightAcc]
  congr 1
  have e : 4 / 3 - m / T = (4 / 3 * T - m) / T := by field_simp
  rw [e]
  field_simp

theorem angleAcc_zero {f g T l m : K} (hT : 0 < T) (hl : 0 < l) (h : 4 / 3 * T - m = 0) : angleAcc f g T l m = .error .zero := by
  have hr : 4 / 3 - m / T = 0 := by
    field_simp
    linear_combination 3 * h
  rw [angleAcc, divide_ok hT.ne']
  simp only [divide_ok hl.ne', divide_ok hT.ne']
  rw [divide, if_pos hr]

/-- The bounds of an accepted environment. -/
def Args.bounds (t : Trig K) (a : Args K) : Bounds K :=
  let acc := uprightAcc (a.force.hi * a.gravity) (a.cartMass.lo + a.poleMass.lo) a.poleLength.lo a.poleMass.hi
  let low := uprightAcc (a.force.lo * a.gravity) (a.cartMass.hi + a.poleMass.hi) a.poleLength.hi a.poleMass.lo
  let vel := (a.force.hi * a.gravity - a.poleMass.lo * a.poleLength.lo * low) / (a.cartMass.lo + a.poleMass.lo) * a.timedelta * 10
  { loc := if a.location then some vel else none, vel := vel, angle := t.pi / 4, angleVel := acc * a.timedelta * 10 }

/-- An accepted environment. -/
def Args.config (t : Trig K) (a : Args K) : Config K :=
  { poleMass := (a.poleMass.lo, a.poleMass.hi), poleLength := (a.poleLength.lo, a.poleLength.hi), cartMass := (a.cartMass.lo, a.cartMass.hi),
    force := (a.force.lo, a.force.hi), gravity := a.gravity, velocities := a.velocities, location := a.location,
    initial := { loc := 0, vel := a.maxVel, angle := a.maxAngle, angleVel := a.maxAngleVel },
    timedelta := a.timedelta, continuous := a.continuous, noop := a.noop, bounds := a.bounds t }

theorem low_ne {a : Args K} (h1 : a.poleMass.Positive) (h3 : a.cartMass.Positive) :
    0 < 4 / 3 * (a.cartMass.hi + a.poleMass.hi) - a.poleMass.lo := by
  have e1 := positive_ends h1
  have e3 := positive_ends h3
  linarith

/-- The constructor for arguments which make sense. -/
theorem bounds_eq (t : Trig K) {a : Args K} (h1 : a.poleMass.Positive) (h2 : a.poleLength.Positive) (h3 : a.cartMass.Positive)
    (hz : 4 / 3 * (a.cartMass.lo + a.poleMass.lo) - a.poleMass.hi ≠ 0) :
    bounds t (a.poleMass.lo, a.poleMass.hi) (a.poleLength.lo, a.poleLength.hi) (a.cartMass.lo, a.cartMass.hi) (a.force.lo, a.force.hi)
      a.gravity a.timedelta a.location =
      if 0 < (a.bounds t).vel ∧ 0 < (a.bounds t).angle ∧ 0 < (a.bounds t).angleVel then .ok (a.bounds t) else .error .assertion := by
  have e1 := positive_ends h1
  have e2 := positive_ends h2
  have e3 := positive_ends h3
  rw [Verif.Cart.bounds, maxAngleAcc, angleAcc_ok (by linarith) e2.1 hz]
  simp only [minAngleAcc]
  rw [angleAcc_ok (by linarith) (by linarith) (low_ne h1 h3).ne']
  simp only [maxLocAcc]
  rw [divide_ok (by linarith)]
  rfl

theorem bounds_zero (t : Trig K) {a : Args K} (h1 : a.poleMass.Positive) (h2 : a.poleLength.Positive) (h3 : a.cartMass.Positive)
    (hz : 4 / 3 * (a.cartMass.lo + a.poleMass.lo) - a.poleMass.hi = 0) :
    bounds t (a.poleMass.lo, a.poleMass.hi) (a.poleLength.lo, a.poleLength.hi) (a.cartMass.lo, a.cartMass.hi) (a.force.lo, a.force.hi)
      a.gravity a.timedelta a.location = .error .zero := by
  have e1 := positive_ends h1
  have e2 := positive_ends h2
  have e3 := positive_ends h3
  rw [Verif.Cart.bounds, maxAngleAcc, angleAcc_zero (by linarith) e2.1 hz]

/-- What is known of the arguments if the constructor accepts them. -/
theorem create_ok {t : Trig K} {a : Args K} {c : Config K} (h : create t a = .ok c) :
    a.poleMass.Positive ∧ a.poleLength.Positive ∧ a.cartMass.Positive ∧ a.force.Positive ∧ 0 < a.gravity ∧
      (a.continuous = true → a.noop = true) ∧ c = a.config t ∧
      4 / 3 * (a.cartMass.lo + a.poleMass.lo) - a.poleMass.hi ≠ 0 ∧ 0 < c.bounds.vel ∧ 0 < c.bounds.angle ∧ 0 < c.bounds.angleVel := by
  rw [create] at h
  split at h
  · cases h
  next r1 hr1 =>
  split at h
  · cases h
  next r2 hr2 =>
  split at h
  · cases h
  next r3 hr3 =>
  split at h
  · cases h
  next r4 hr4 =>
  split at h
  · cases h
  next hg =>
  split at h
  · cases h
  next hn =>
  obtain ⟨-, -, p1, -⟩ := check_ok hr1
  obtain ⟨-, -, p2, -⟩ := check_ok hr2
  obtain ⟨-, -, p3, -⟩ := check_ok hr3
  obtain ⟨-, -, p4, -⟩ := check_ok hr4
  rw [check_eq hr1, check_eq hr2, check_eq hr3, check_eq hr4] at h
  by_cases hz : 4 / 3 * (a.cartMass.lo + a.poleMass.lo) - a.poleMass.hi = 0
  · rw [bounds_zero t p1 p2 p3 hz] at h
    cases h
  · rw [bounds_eq t p1 p2 p3 hz] at h
    by_cases hb : 0 < (a.bounds t).vel ∧ 0 < (a.bounds t).angle ∧ 0 < (a.bounds t).angleVel
    · rw [if_pos hb] at h
      cases h
      refine ⟨p1, p2, p3, p4, not_not.mp hg, fun hc => ?_, rfl, hz, hb⟩
      by_contra hno
      exact hn ⟨hc, hno⟩
    · rw [if_neg hb] at h
      cases h

theorem create_of {t : Trig K} (ht : t.Laws) {a : Args K} (hs : a.Sensible) :
    (a.Light → create t a = .ok (a.config t)) ∧ (¬ a.Light → create t a = .error .assertion ∨ create t a = .error .zero) := by
  obtain ⟨p1, p2, p3, p4, hg, hd, hn⟩ := hs
  have e1 := positive_ends p1
  have e2 := positive_ends p2
  have e3 := positive_ends p3
  have e4 := positive_ends p4
  have hT : 0 < a.cartMass.lo + a.poleMass.lo := by linarith
  have hc : ¬ (a.continuous = true ∧ ¬ a.noop = true) := fun h => h.2 (hn h.1)
  have h : create t a = match bounds t (a.poleMass.lo, a.poleMass.hi) (a.poleLength.lo, a.poleLength.hi) (a.cartMass.lo, a.cartMass.hi)
      (a.force.lo, a.force.hi) a.gravity a.timedelta a.location with
      | .error e => .error e
      | .ok b => .ok { a.config t with bounds := b } := by
    rw [create, check_of p1]
    simp only [check_of p2, check_of p3, check_of p4]
    rw [if_neg (not_not.mpr hg), if_neg hc]
    rfl
  rw [h]
  constructor
  · rintro ⟨l1, l2⟩
    rw [bounds_eq t p1 p2 p3 (by linarith), if_pos]
    · rfl
    refine ⟨?_, ?_, ?_⟩
    · exact mul_pos (mul_pos (div_pos (by linarith) hT) hd) (by norm_num)
    · exact div_pos ht.pi_pos (by norm_num)
    · exact mul_pos (mul_pos (div_pos (mul_pos (by linarith) hg) (mul_pos e2.1 (by linarith))) hd) (by norm_num)
  · intro hl
    by_cases hz : 4 / 3 * (a.cartMass.lo + a.poleMass.lo) - a.poleMass.hi = 0
    · rw [bounds_zero t p1 p2 p3 hz]
      exact .inr rfl
    · rw [bounds_eq t p1 p2 p3 hz, if_neg]
      · exact .inl rfl
      rintro ⟨b1, -, b3⟩
      apply hl
      have q1 := (pos_iff_pos_of_mul_pos b1).mpr (by norm_num)
      have q3 := (pos_iff_pos_of_mul_pos b3).mpr (by norm_num)
      have q1' := (pos_iff_pos_of_mul_pos q1).mpr hd
      have q3' := (pos_iff_pos_of_mul_pos q3).mpr hd
      constructor
      · rw [uprightAcc, div_pos_iff_of_pos_left (mul_pos (by linarith) hg)] at q3'
        have := (pos_iff_pos_of_mul_pos q3').mp e2.1
        linarith
      · have := (div_pos_iff_of_pos_right hT).mp q1'
        linarith

/-! ## Physics parameters -/

theorem draw_allowed {t : Trig K} {a : Args K} {c : Config K} (h : create t a = .ok c) {u : Physics K} (hu : u.Unit) :
    a.Allows (drawPhysics c u) := by
  obtain ⟨p1, p2, p3, p4, -, -, rfl, -⟩ := create_ok h
  obtain ⟨u1, u2, u3, u4⟩ := hu
  exact ⟨has_ends.mpr (uniform_mem (positive_ends p1).2 u1), has_ends.mpr (uniform_mem (positive_ends p2).2 u2),
    has_ends.mpr (uniform_mem (positive_ends p3).2 u3), has_ends.mpr (uniform_mem (positive_ends p4).2 u4)⟩

theorem allowed_pos {t : Trig K} {a : Args K} {c : Config K} (h : create t a = .ok c) {p : Physics K} (hp : a.Allows p) : p.Pos := by
  obtain ⟨p1, p2, p3, p4, -⟩ := create_ok h
  obtain ⟨q1, q2, q3, q4⟩ := hp
  exact ⟨lt_of_lt_of_le (positive_ends p1).1 (has_ends.mp q1).1, lt_of_lt_of_le (positive_ends p2).1 (has_ends.mp q2).1,
    lt_of_lt_of_le (positive_ends p3).1 (has_ends.mp q3).1, lt_of_lt_of_le (positive_ends p4).1 (has_ends.mp q4).1⟩

end Verif.Cart
