import Verif.Rand.Lemmas
import Mathlib.Algebra.Order.Ring.Abs
import Mathlib.Data.List.Induction

/-!
# Ornstein-Uhlenbeck process: lemmas
-/

namespace Verif.Rand

theorem run_length (p : Process) (x : ℚ) (zs : List ℚ) : (run p x zs).2.length = zs.length := by
  induction zs generalizing x with
  | nil => rfl
  | cons z zs ih => exact congrArg (· + 1) (ih _)

theorem created_iff (p : Process) :
    createProcess p = .ok () ↔ p.required.max = none ∧ ∀ c, p.required.min = some c → p.absolute = true ∧ c ≤ 0 := by
  unfold createProcess
  rw [checkBounds_ok]
  unfold lowest
  cases p.required.max <;> cases p.required.min <;> cases p.absolute <;> simp [crossed, lowerOk, upperOk]

theorem toDtype_nonneg {b : Bool} {x : ℚ} (h : 0 ≤ x) : 0 ≤ toDtype b x := by
  have := toDtype_mono (b := b) h
  have e : toDtype b 0 = 0 := by cases b <;> decide +kernel
  rwa [e] at this

theorem next_nonneg {p : Process} (h : p.absolute = true) (x z : ℚ) : 0 ≤ next p x z := by
  unfold next
  dsimp only
  rw [if_pos h]
  exact abs_nonneg _

theorem next_plain {p : Process} (h : p.absolute = false) (x z : ℚ) : next p x z = (1 - p.theta) * x + p.theta * p.mu + p.sigma * z := by
  unfold next
  dsimp only
  rw [h, if_neg Bool.false_ne_true]
  ring

/-- Every value comes from a state of the process. -/
theorem value_next {p : Process} {x : ℚ} {zs : List ℚ} {o : Except Err ℚ} (h : o ∈ (run p x zs).2) :
    ∃ y z, o = checked p.required (toDtype p.isInt (next p y z)) := by
  induction zs generalizing x with
  | nil => cases h
  | cons z zs ih =>
    rcases List.mem_cons.1 h with h | h
    · exact ⟨x, z, h⟩
    · exact ih h

theorem created_satisfies {p : Process} (hc : createProcess p = .ok ()) (y z : ℚ) : Satisfies p.required (toDtype p.isInt (next p y z)) := by
  obtain ⟨h1, h2⟩ := (created_iff p).1 hc
  refine ⟨fun c e => ?_, fun c e => (by rw [h1] at e; cases e)⟩
  obtain ⟨ha, hle⟩ := h2 c e
  exact le_trans hle (toDtype_nonneg (next_nonneg ha y z))

theorem run_plain {p : Process} (h : p.absolute = false) (x : ℚ) (zs : List ℚ) :
    (run p x zs).1 = p.mu + (1 - p.theta) ^ zs.length * (x - p.mu) + p.sigma * weighted (1 - p.theta) zs := by
  induction zs using List.reverseRecOn with
  | nil => show x = _; unfold weighted; simp
  | append_singleton zs z ih =>
    rw [(run_append p x zs z).1, next_plain h, ih, weighted_append, List.length_append]
    show _ = p.mu + (1 - p.theta) ^ (zs.length + 1) * _ + _
    ring

theorem step_bound {p : Process} {b : ℚ} (h0 : 0 ≤ p.theta) (h1 : p.theta ≤ 1) (hs : 0 ≤ p.sigma) {x z : ℚ} (hz : |z| ≤ b)
    (hx : p.theta * |x - p.mu| ≤ p.sigma * b) : p.theta * |(x + (p.theta * (p.mu - x) + p.sigma * z)) - p.mu| ≤ p.sigma * b := by
  have e : (x + (p.theta * (p.mu - x) + p.sigma * z)) - p.mu = (1 - p.theta) * (x - p.mu) + p.sigma * z := by ring
  rw [e]
  have t := abs_add_le ((1 - p.theta) * (x - p.mu)) (p.sigma * z)
  rw [abs_mul, abs_mul, abs_of_nonneg (by linarith : 0 ≤ 1 - p.theta), abs_of_nonneg hs] at t
  have t2 := mul_le_mul_of_nonneg_left t h0
  have m1 := mul_le_mul_of_nonneg_left hx (by linarith : 0 ≤ 1 - p.theta)
  have m2 := mul_le_mul_of_nonneg_left (mul_le_mul_of_nonneg_left hz hs) h0
  have e2 : p.theta * ((1 - p.theta) * |x - p.mu| + p.sigma * |z|) = (1 - p.theta) * (p.theta * |x - p.mu|) + p.theta * (p.sigma * |z|) := by ring
  have e3 : (1 - p.theta) * (p.sigma * b) + p.theta * (p.sigma * b) = p.sigma * b := by ring
  linarith

/-- Taking the absolute value does not lead away from a nonnegative mean. -/
theorem abs_closer {y m : ℚ} (h : 0 ≤ m) : |(|y|) - m| ≤ |y - m| := by
  have := abs_abs_sub_abs_le y m
  rwa [abs_of_nonneg h] at this

end Verif.Rand
