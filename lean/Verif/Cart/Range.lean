import Verif.Cart.Motion
import Verif.Cart.Parallel

/-!
# States within the announced range
-/

namespace Verif.Cart

variable {K : Type} [Field K] [LinearOrder K]

theorem beyond_iff {x : K} {b : Option K} : beyond x b = false ↔ Within x b := by
  cases b with
  | none => simp [beyond, Within]
  | some b => simp [beyond, Within]

theorem terminal_iff {b : Bounds K} {s : State K} : terminal b s = false ↔ Inside b s := by
  rw [terminal, Inside]
  simp only [Bool.or_eq_false_iff, beyond_iff, and_assoc]
  rfl

theorem view_inRange {c : Config K} {s : State K} (h : Inside c.bounds s) : InRange c.maxValues (c.view s) := by
  obtain ⟨h1, h2, h3, h4⟩ := h
  rw [Config.maxValues, Config.view, select, select]
  cases c.velocities <;> cases c.location
  · exact ⟨h3, trivial⟩
  · exact ⟨h3, h1, trivial⟩
  · exact ⟨h3, h4, h2, trivial⟩
  · exact ⟨h3, h4, h2, h1, trivial⟩

theorem inRange_inside {c : Config K} (hv : c.velocities = true) (hl : c.location = false → c.bounds.loc = none) {s : State K}
    (h : InRange c.maxValues (c.view s)) : Inside c.bounds s := by
  rw [Config.maxValues, Config.view, select, select, hv] at h
  cases hc : c.location with
  | false =>
    rw [hc] at h
    obtain ⟨h3, h4, h2, -⟩ := h
    exact ⟨by rw [hl hc]; trivial, h2, h3, h4⟩
  | true =>
    rw [hc] at h
    obtain ⟨h3, h4, h2, h1, -⟩ := h
    exact ⟨h1, h2, h3, h4⟩

theorem keep_mem {α : Type} {p : α → Bool} {xs : List α} {x : α} (h : x ∈ keep (xs.map p) xs) : p x = false := by
  have := keep_map p (fun x => x) xs
  rw [List.map_id', List.map_id'] at this
  rw [this, List.mem_filter] at h
  simpa using h.2

/-- What `execute` does, in one equation. -/
theorem execute_ok {t : Trig K} {c : Config K} {e e' : Env K} {actions : Actions K} {r : Result K} (h : execute t c e actions = .ok (e', r)) :
    ∃ xs fs, forces c e.physics actions = .ok xs ∧ broadcast e.states.length xs = .ok fs ∧
      let states := List.zipWith (advance t c.gravity c.timedelta e.physics) e.states fs
      let done := states.map (terminal c.bounds)
      e'.physics = e.physics ∧ e'.parallel = e.parallel ∧ e'.states = (if e.parallel then keep done states else states) ∧
        e'.indices = (if e.parallel then keep done e.indices else e.indices) ∧
        r = { indices := e'.indices, states := e'.states.map c.view, terminal := done, rewards := done.map fun _ => 1 } := by
  rw [execute] at h
  split at h
  · cases h
  next xs hxs =>
  split at h
  · cases h
  next fs hfs =>
  cases h
  refine ⟨xs, fs, hxs, hfs, ?_⟩
  cases e.parallel <;> exact ⟨rfl, rfl, rfl, rfl, rfl⟩

/-- States returned by a step which does not end the episode. -/
theorem step_inside {t : Trig K} {c : Config K} {e e' : Env K} {actions : Actions K} {r : Result K} (h : execute t c e actions = .ok (e', r))
    (hr : e.parallel = true ∨ ∀ d ∈ r.terminal, d = false) : ∀ s ∈ e'.states, Inside c.bounds s := by
  obtain ⟨xs, fs, -, -, h⟩ := execute_ok h
  dsimp only at h
  obtain ⟨-, -, h1, -, rfl⟩ := h
  intro s hs
  rw [h1] at hs
  rw [← terminal_iff]
  cases hp : e.parallel with
  | true =>
    rw [hp, if_pos rfl] at hs
    exact keep_mem hs
  | false =>
    rw [hp] at hs hr
    rcases hr with hr | hr
    · cases hr
    · exact hr _ (List.mem_map_of_mem hs)

variable [IsStrictOrderedRing K]

theorem uniform_abs {a u : K} (hu : unit u) : |uniform (-a) a u| ≤ |a| := by
  obtain ⟨h0, h1⟩ := hu
  have e : uniform (-a) a u = a * (2 * u - 1) := by rw [uniform]; ring
  rw [e, abs_mul]
  have : |2 * u - 1| ≤ 1 := abs_le.mpr ⟨by linarith, by linarith⟩
  exact mul_le_of_le_one_right (abs_nonneg _) this

theorem initial_inside {c : Config K} (hl : c.initial.loc = 0) (hb : ∀ b, c.bounds.loc = some b → 0 ≤ b) (h1 : |c.initial.vel| ≤ c.bounds.vel)
    (h2 : |c.initial.angle| ≤ c.bounds.angle) (h3 : |c.initial.angleVel| ≤ c.bounds.angleVel) {u : State K} (hu : u.Unit) :
    Inside c.bounds (initialState c u) := by
  obtain ⟨-, u2, u3, u4⟩ := hu
  refine ⟨?_, (uniform_abs u2).trans h1, (uniform_abs u3).trans h2, (uniform_abs u4).trans h3⟩
  cases e : c.bounds.loc with
  | none => trivial
  | some b =>
    have : uniform (-c.initial.loc) c.initial.loc u.loc = 0 := by rw [uniform, hl]; ring
    change |uniform (-c.initial.loc) c.initial.loc u.loc| ≤ b
    rw [this, abs_zero]
    exact hb b e

end Verif.Cart
