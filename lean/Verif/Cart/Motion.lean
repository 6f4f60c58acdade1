import Verif.Cart.Spec
import Mathlib.Tactic.Ring
import Mathlib.Tactic.FieldSimp
import Mathlib.Tactic.Linarith
import Mathlib.Tactic.LinearCombination
import Mathlib.Tactic.Positivity

/-!
# The accelerations solve the equations of motion
-/

namespace Verif.Cart

variable {K : Type} [Field K] [LinearOrder K] [IsStrictOrderedRing K]

/-- The bracket in the denominator is positive. -/
theorem bracket_pos {m M c : K} (hm : 0 < m) (hM : 0 < M) (hc : c * c ≤ 1) : 0 < 4 / 3 - m * c * c / (M + m) := by
  have hT : 0 < M + m := by linarith
  have h : m * c * c / (M + m) ≤ 1 := by
    rw [div_le_one hT]
    nlinarith
  linarith [show (1 : K) < 4 / 3 by norm_num]

theorem solves {t : Trig K} (ht : t.Laws) (gravity : K) {p : Physics K} (hp : p.Pos) (s : State K) (force : K) :
    Motion t gravity p s force (locAccel t gravity p s force) (angleAccel t gravity p s force) := by
  obtain ⟨hm, hl, hM, -⟩ := hp
  have hT : p.cartMass + p.poleMass ≠ 0 := by linarith
  have hD := (bracket_pos hm hM (ht.cos_sq s.angle)).ne'
  have hl' := hl.ne'
  have key : angleAccel t gravity p s force * (p.poleLength * (4 / 3 - p.poleMass * t.cos s.angle * t.cos s.angle / (p.cartMass + p.poleMass))) =
      gravity * t.sin s.angle - t.cos s.angle * ((force + p.poleMass * p.poleLength * s.angleVel * s.angleVel * t.sin s.angle) / (p.cartMass + p.poleMass)) := by
    rw [angleAccel]
    rw [div_mul_cancel₀]
    exact mul_ne_zero hl' hD
  rw [Motion, locAccel]
  generalize angleAccel t gravity p s force = b at key ⊢
  constructor
  · field_simp
    ring
  · linear_combination key

theorem unique {t : Trig K} (ht : t.Laws) {gravity : K} {p : Physics K} (hp : p.Pos) {s : State K} {force a b a' b' : K}
    (h : Motion t gravity p s force a b) (h' : Motion t gravity p s force a' b') : a = a' ∧ b = b' := by
  obtain ⟨hm, hl, hM, -⟩ := hp
  have hT : 0 < p.cartMass + p.poleMass := by linarith
  have hD := bracket_pos hm hM (ht.cos_sq s.angle)
  have hTD : 0 < (p.cartMass + p.poleMass) * (4 / 3) - p.poleMass * t.cos s.angle * t.cos s.angle := by
    have := mul_pos hT hD
    have e : (p.cartMass + p.poleMass) * (4 / 3 - p.poleMass * t.cos s.angle * t.cos s.angle / (p.cartMass + p.poleMass)) =
        (p.cartMass + p.poleMass) * (4 / 3) - p.poleMass * t.cos s.angle * t.cos s.angle := by
      field_simp
    rwa [e] at this
  obtain ⟨h1, h2⟩ := h
  obtain ⟨h3, h4⟩ := h'
  have hb : (b - b') * (p.poleLength * ((p.cartMass + p.poleMass) * (4 / 3) - p.poleMass * t.cos s.angle * t.cos s.angle)) = 0 := by
    linear_combination (p.cartMass + p.poleMass) * (h2 - h4) - t.cos s.angle * (h1 - h3)
  have hb' : b = b' := by
    rcases mul_eq_zero.mp hb with h | h
    · exact sub_eq_zero.mp h
    · exact absurd h (mul_pos hl hTD).ne'
  refine ⟨?_, hb'⟩
  subst hb'
  have : (p.cartMass + p.poleMass) * (a - a') = 0 := by linear_combination h1 - h3
  rcases mul_eq_zero.mp this with h | h
  · exact absurd h hT.ne'
  · exact sub_eq_zero.mp h

theorem advance_moves {t : Trig K} (ht : t.Laws) (gravity timedelta : K) {p : Physics K} (hp : p.Pos) (s : State K) (force : K) :
    MovesTo t gravity timedelta p force s (advance t gravity timedelta p s force) :=
  ⟨_, _, solves ht gravity hp s force, rfl, rfl, rfl, rfl⟩

theorem moves_unique {t : Trig K} (ht : t.Laws) {gravity timedelta : K} {p : Physics K} (hp : p.Pos) {s s' s'' : State K} {force : K}
    (h : MovesTo t gravity timedelta p force s s') (h' : MovesTo t gravity timedelta p force s s'') : s' = s'' := by
  obtain ⟨a, b, h, e1, e2, e3, e4⟩ := h
  obtain ⟨a', b', h', e1', e2', e3', e4'⟩ := h'
  obtain ⟨rfl, rfl⟩ := unique ht hp h h'
  cases s'
  cases s''
  simp_all

/-! ## Draws -/

theorem uniform_mem {a b u : K} (h : a ≤ b) (hu : unit u) : a ≤ uniform a b u ∧ uniform a b u ≤ b := by
  obtain ⟨h0, h1⟩ := hu
  rw [uniform]
  constructor <;> nlinarith

theorem check_ok {a : Arg K} {r : K × K} (h : a.check = .ok r) : 0 < r.1 ∧ r.1 ≤ r.2 ∧ a.Positive ∧ ∀ x, r.1 ≤ x → x ≤ r.2 → a.has x := by
  cases a with
  | value x =>
    rw [Arg.check] at h
    split at h
    · cases h
      exact ⟨‹_›, le_rfl, ‹_›, fun y h1 h2 => le_antisymm h2 h1⟩
    · cases h
  | range a b =>
    rw [Arg.check] at h
    split at h
    · next hx =>
      cases h
      exact ⟨hx.1, hx.2.le, hx, fun y h1 h2 => ⟨h1, h2⟩⟩
    · cases h

end Verif.Cart
