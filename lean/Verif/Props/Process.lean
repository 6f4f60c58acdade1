import Verif.Rand.ProcessLemmas

/-!
# Hyperparameters following an Ornstein-Uhlenbeck process (C124)
-/

namespace Verif.Props.Process

open Verif.Rand

/-- The documented defaults: theta 0.15, sigma 0.3, mu 0, not absolute. -/
theorem default_values (isInt : Bool) (r : Required) : let p := Process.default isInt r
    p.theta = 15 / 100 ∧ p.sigma = 30 / 100 ∧ p.mu = 0 ∧ p.absolute = false ∧ p.isInt = isInt ∧ p.required = r := by
  unfold Process.default
  refine ⟨?_, ?_, rfl, rfl, rfl, rfl⟩ <;> norm_num

/-- Created exactly if no upper bound is required, and a lower bound only for absolute processes and not above zero. -/
theorem created (p : Process) :
    createProcess p = .ok () ↔ p.required.max = none ∧ ∀ c, p.required.min = some c → p.absolute = true ∧ c ≤ 0 := created_iff p

/-- Each call gives one value, of the type, satisfying the required bounds, and not negative for absolute processes. -/
theorem values_valid (p : Process) (zs : List ℚ) (hc : createProcess p = .ok ()) :
    (start p zs).2.length = zs.length ∧
    ∀ o ∈ (start p zs).2, ∃ v, o = .ok v ∧ Satisfies p.required v ∧ OfType p.isInt v ∧ (p.absolute = true → 0 ≤ v) := by
  refine ⟨run_length p _ zs, fun o ho => ?_⟩
  obtain ⟨y, z, e⟩ := value_next ho
  have hs := created_satisfies hc y z
  exact ⟨_, by rw [e, checked_ok hs], hs, converted_type (converted _ _), fun ha => toDtype_nonneg (next_nonneg ha y z)⟩

/-- Closed form: the mean plus the noise, each with a factor `1 - theta` less per step. -/
theorem formula (p : Process) (zs : List ℚ) (h : p.absolute = false) : (start p zs).1 = p.mu + p.sigma * weighted (1 - p.theta) zs := by
  unfold start
  rw [run_plain h, sub_self, mul_zero, add_zero]

/-- From any state, e.g. after loading: the distance from the mean shrinks by `1 - theta` each step. -/
theorem continued (p : Process) (x : ℚ) (zs : List ℚ) (h : p.absolute = false) :
    (run p x zs).1 = p.mu + (1 - p.theta) ^ zs.length * (x - p.mu) + p.sigma * weighted (1 - p.theta) zs := run_plain h x zs

/-- One further call of an absolute process: the absolute value of the state moved towards the mean and disturbed. -/
theorem absolute_step (p : Process) (zs : List ℚ) (z : ℚ) (h : p.absolute = true) :
    (start p (zs ++ [z])).1 = |(1 - p.theta) * (start p zs).1 + p.theta * p.mu + p.sigma * z| := by
  unfold start
  rw [(run_append p _ zs z).1]
  unfold next
  dsimp only
  rw [if_pos h]
  congr 1
  ring

/-- The value returned by a call is the new state, converted to the type. -/
theorem value_state (p : Process) (zs : List ℚ) (z v : ℚ) (hc : createProcess p = .ok ()) (hv : Converted p.isInt (start p (zs ++ [z])).1 v) :
    (start p (zs ++ [z])).2 = (start p zs).2 ++ [.ok v] := by
  unfold start at hv ⊢
  rw [(run_append p _ zs z).2]
  rw [(run_append p _ zs z).1] at hv
  rw [checked_ok (created_satisfies hc _ _), converted_eq hv]

/-- The process starts at the mean: without noise it stays there, if the mean is not negative or the process not absolute. -/
theorem quiet (p : Process) (zs : List ℚ) (hz : ∀ z ∈ zs, z = 0) (h : p.absolute = true → 0 ≤ p.mu) : (start p zs).1 = p.mu := by
  unfold start
  induction zs with
  | nil => rfl
  | cons z zs ih =>
    have e : next p p.mu z = p.mu := by
      rw [hz z List.mem_cons_self]
      unfold next
      dsimp only
      rw [sub_self, mul_zero, mul_zero, add_zero, add_zero]
      split
      · rename_i ha
        exact abs_of_nonneg (h ha)
      · rfl
    show (run p (next p p.mu z) zs).1 = _
    rw [e]
    exact ih (fun z hz' => hz z (List.mem_cons_of_mem _ hz'))

/-- With `0 ≤ theta ≤ 1` and noise within `b`, the state stays within `sigma * b / theta` of the mean, which must not be negative for
absolute processes. -/
theorem bounded (p : Process) (b : ℚ) (zs : List ℚ) (h0 : 0 ≤ p.theta) (h1 : p.theta ≤ 1) (hs : 0 ≤ p.sigma) (hb : 0 ≤ b)
    (hz : ∀ z ∈ zs, |z| ≤ b) (hm : p.absolute = true → 0 ≤ p.mu) : p.theta * |(start p zs).1 - p.mu| ≤ p.sigma * b := by
  induction zs using List.reverseRecOn with
  | nil =>
    show p.theta * |p.mu - p.mu| ≤ _
    rw [sub_self, abs_zero, mul_zero]
    exact mul_nonneg hs hb
  | append_singleton zs z ih =>
    have ih := ih (fun z hz' => hz z (List.mem_append_left _ hz'))
    have hs' := step_bound h0 h1 hs (hz z (List.mem_append_right _ List.mem_cons_self)) ih
    unfold start at hs' ⊢
    rw [(run_append p _ zs z).1]
    unfold next
    dsimp only
    split
    · rename_i ha
      exact le_trans (mul_le_mul_of_nonneg_left (abs_closer (hm ha)) h0) hs'
    · exact hs'

/-- The default process: noise within `b` keeps it within `2 * b` of zero. -/
theorem default_bounded (isInt : Bool) (r : Required) (b : ℚ) (zs : List ℚ) (hb : 0 ≤ b) (hz : ∀ z ∈ zs, |z| ≤ b) :
    |(start (Process.default isInt r) zs).1| ≤ 2 * b := by
  have h := bounded (Process.default isInt r) b zs (by show (0 : ℚ) ≤ 3 / 20; norm_num) (by show (3 / 20 : ℚ) ≤ 1; norm_num)
    (by show (0 : ℚ) ≤ 3 / 10; norm_num) hb hz (fun h => nomatch h)
  change (3 / 20 : ℚ) * |(start (Process.default isInt r) zs).1 - 0| ≤ 3 / 10 * b at h
  rw [sub_zero] at h
  linarith

/-- The final value is the mean converted to the type; for processes that are not absolute or have no negative mean it is not below the
announced minimum. What is missing: absolute processes with a negative mean, see `final_violation`. -/
theorem final_partial (p : Process) (h : p.absolute = true → 0 ≤ p.mu) :
    Converted p.isInt p.mu (final p) ∧ ∀ m, lowest p = some m → m ≤ final p := by
  refine ⟨converted _ _, fun m hm => ?_⟩
  unfold lowest at hm
  split at hm
  · rename_i ha
    rw [← Option.some.inj hm]
    exact toDtype_nonneg (h ha)
  · cases hm

/-- An absolute process with negative mean is created where nonnegative values are required, but announces a negative final value, which no
call returns. -/
theorem final_violation : let p : Process := ⟨false, 3 / 20, 3 / 10, -1, true, ⟨some 0, none⟩⟩
    createProcess p = .ok () ∧ final p = -1 ∧ ∀ zs, ∀ o ∈ (start p zs).2, o ≠ .ok (final p) := by
  intro p
  have hc : createProcess p = .ok () := (created p).2 ⟨rfl, fun c e => ⟨rfl, le_of_eq (Option.some.inj e).symm⟩⟩
  refine ⟨hc, rfl, fun zs o ho e => ?_⟩
  obtain ⟨v, hv, _, _, h0⟩ := (values_valid p zs hc).2 o ho
  rw [hv] at e
  have : v = -1 := Except.ok.inj e
  have := h0 rfl
  linarith

/-- `theta` and `sigma` are not checked: with `theta = -1` the distance from the mean doubles each step, without any further noise. -/
theorem theta_violation (n : Nat) : let p : Process := ⟨false, -1, 1, 0, false, ⟨none, none⟩⟩
    createProcess p = .ok () ∧ (run p (next p 0 1) (List.replicate n 0)).1 = 2 ^ n := by
  intro p
  refine ⟨by decide +kernel, ?_⟩
  rw [continued p _ _ rfl]
  have hw : ∀ n, weighted (1 - p.theta) (List.replicate n 0) = 0 := by
    intro n
    induction n with
    | zero => rfl
    | succ n ih => rw [List.replicate_succ', weighted_append, ih, mul_zero, add_zero]
  rw [hw, List.length_replicate, show next p 0 1 = 1 by decide +kernel]
  show (0 : ℚ) + (1 - -1) ^ n * (1 - 0) + 1 * 0 = 2 ^ n
  norm_num

/-- Two calls of the default process. -/
example : start (Process.default false ⟨none, none⟩) [1, -1] = (-9 / 200, [.ok (3 / 10), .ok (-9 / 200)]) ∧
    createProcess (Process.default false ⟨none, none⟩) = .ok () := by
  refine ⟨by decide +kernel, by decide +kernel⟩

/-- An absolute integer process where nonnegative values are required. -/
example : let p : Process := ⟨true, 1 / 2, 2, 3, true, ⟨some 0, none⟩⟩
    createProcess p = .ok () ∧ start p [-3, 1] = (5, [.ok 3, .ok 5]) ∧ final p = 3 := by
  refine ⟨by decide +kernel, by decide +kernel, by decide +kernel⟩

/-- Rejected: bounds required of a process that is not absolute. -/
example : createProcess (Process.default false ⟨some 0, none⟩) = .error .value ∧ createProcess (Process.default false ⟨none, some 1⟩) = .error .value := by
  refine ⟨by decide +kernel, by decide +kernel⟩

end Verif.Props.Process
