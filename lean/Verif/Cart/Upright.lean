import Verif.Cart.Create

/-!
# Accelerations of an upright pole at rest
-/

namespace Verif.Cart

variable {K : Type} [Field K] [LinearOrder K] [IsStrictOrderedRing K]

theorem upright_den {p : Physics K} (hp : p.Pos) : 0 < 4 / 3 * (p.cartMass + p.poleMass) - p.poleMass := by
  obtain ⟨h1, -, h3, -⟩ := hp
  linarith

theorem rest_angleAccel {t : Trig K} (ht : t.Laws) (gravity : K) {p : Physics K} (hp : p.Pos) (f : K) :
    angleAccel t gravity p .rest f = -uprightAcc f (p.cartMass + p.poleMass) p.poleLength p.poleMass := by
  have hd := (upright_den hp).ne'
  obtain ⟨h1, h2, h3, -⟩ := hp
  have hT : p.cartMass + p.poleMass ≠ 0 := by linarith
  have hl := h2.ne'
  have e : 4 / 3 - p.poleMass / (p.cartMass + p.poleMass) = (4 / 3 * (p.cartMass + p.poleMass) - p.poleMass) / (p.cartMass + p.poleMass) := by
    field_simp
  simp only [angleAccel, State.rest, ht.sin_zero, ht.cos_zero, mul_zero, add_zero, mul_one, one_mul, zero_sub]
  rw [e, uprightAcc]
  field_simp

theorem rest_locAccel {t : Trig K} (ht : t.Laws) (gravity : K) {p : Physics K} (hp : p.Pos) (f : K) :
    locAccel t gravity p .rest f =
      (f + p.poleMass * p.poleLength * uprightAcc f (p.cartMass + p.poleMass) p.poleLength p.poleMass) / (p.cartMass + p.poleMass) := by
  rw [locAccel, rest_angleAccel ht gravity hp]
  simp only [State.rest, ht.sin_zero, ht.cos_zero, mul_zero, add_zero, mul_one]
  ring

/-- The angle is accelerated most by the largest force, with the lightest and shortest pole and the lightest cart. -/
theorem upright_le {a : Args K} (hs : a.poleMass.Positive ∧ a.poleLength.Positive ∧ a.cartMass.Positive ∧ a.force.Positive ∧ 0 < a.gravity)
    (hl : 0 < 4 / 3 * (a.cartMass.lo + a.poleMass.lo) - a.poleMass.hi) {p : Physics K} (hp : a.Allows p) {x : K} (hx : |x| ≤ 1) :
    |uprightAcc (x * (p.force * a.gravity)) (p.cartMass + p.poleMass) p.poleLength p.poleMass| ≤
      uprightAcc (a.force.hi * a.gravity) (a.cartMass.lo + a.poleMass.lo) a.poleLength.lo a.poleMass.hi := by
  obtain ⟨p1, p2, p3, p4, hg⟩ := hs
  obtain ⟨q1, q2, q3, q4⟩ := hp
  have e1 := positive_ends p1
  have e2 := positive_ends p2
  have e3 := positive_ends p3
  have e4 := positive_ends p4
  have b1 := has_ends.mp q1
  have b2 := has_ends.mp q2
  have b3 := has_ends.mp q3
  have b4 := has_ends.mp q4
  have hden : a.poleLength.lo * (4 / 3 * (a.cartMass.lo + a.poleMass.lo) - a.poleMass.hi) ≤
      p.poleLength * (4 / 3 * (p.cartMass + p.poleMass) - p.poleMass) :=
    mul_le_mul b2.1 (by linarith) hl.le (by linarith)
  have hpos : 0 < a.poleLength.lo * (4 / 3 * (a.cartMass.lo + a.poleMass.lo) - a.poleMass.hi) := mul_pos e2.1 hl
  have hf : 0 < p.force := by linarith
  rw [uprightAcc, uprightAcc, abs_div, abs_of_pos (lt_of_lt_of_le hpos hden)]
  apply div_le_div₀
  · exact (mul_pos (by linarith) hg).le
  · rw [abs_mul, abs_of_pos (mul_pos hf hg)]
    calc |x| * (p.force * a.gravity) ≤ 1 * (p.force * a.gravity) := mul_le_mul_of_nonneg_right hx (mul_pos hf hg).le
      _ = p.force * a.gravity := one_mul _
      _ ≤ a.force.hi * a.gravity := mul_le_mul_of_nonneg_right b4.2 hg.le
  · exact hpos
  · exact hden

/-- The acceleration of the location which the bound is derived from is smaller than the one with the same force and physics parameters. -/
theorem loc_exceeds {f T m l : K} (hf : 0 < f) (hT : 0 < T) (hm : 0 < m) (hl : 0 < l) (hd : 0 < 4 / 3 * T - m) :
    (f - m * l * uprightAcc f T l m) / T < (f + m * l * uprightAcc f T l m) / T := by
  have h : 0 < m * l * uprightAcc f T l m := mul_pos (mul_pos hm hl) (div_pos hf (mul_pos hl hd))
  exact div_lt_div_of_pos_right (by linarith) hT

end Verif.Cart
