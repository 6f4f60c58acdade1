import Verif.Cart.Upright
import Verif.Cart.Range
import Verif.Cart.Real

/-!
# Properties of the cart-pole environment (C79–C83)
-/

namespace Verif.Props.Cart
open Verif.Cart

variable {K : Type} [Field K] [LinearOrder K] [IsStrictOrderedRing K]

/-- The default arguments (27-46). -/
def defaults : Args K :=
  { poleMass := .range (1 / 20) (1 / 2), poleLength := .range (1 / 10) 1, cartMass := .range (1 / 2) (3 / 2), force := .range (3 / 4) (3 / 2),
    gravity := 49 / 5, velocities := true, location := false, maxAngle := 1 / 20, maxAngleVel := 1 / 20, maxVel := 1 / 20,
    timedelta := 1 / 50, continuous := false, noop := true }

theorem defaults_sensible : (defaults : Args K).Sensible := by
  refine ⟨?_, ?_, ?_, ?_, ?_, ?_, fun h => ?_⟩ <;> norm_num [defaults, Arg.Positive] at *

theorem defaults_light : (defaults : Args K).Light := by
  constructor <;> norm_num [defaults, Arg.lo, Arg.hi, uprightAcc]

/-- The original environment of Gym. -/
def original : Args K :=
  { defaults with poleMass := .value (1 / 10), poleLength := .value (1 / 2), cartMass := .value 1, force := .value 1 }

theorem original_sensible : (original : Args K).Sensible := by
  refine ⟨?_, ?_, ?_, ?_, ?_, ?_, fun h => ?_⟩ <;> norm_num [original, defaults, Arg.Positive] at *

theorem original_light : (original : Args K).Light := by
  constructor <;> norm_num [original, defaults, Arg.lo, Arg.hi, uprightAcc]

/-! ## C79 -/

/-- **C79.** The physics parameters of an episode lie in the given ranges and are positive. -/
theorem physics {t : Trig K} {a : Args K} {c : Config K} (h : create t a = .ok c) (parallel : Bool) {u : Physics K} (hu : u.Unit)
    (us : List (State K)) : a.Allows (reset c parallel u us).physics ∧ (reset c parallel u us).physics.Pos :=
  ⟨draw_allowed h hu, allowed_pos h (draw_allowed h hu)⟩

/-- **C79.** All physics parameters in the given ranges may be those of an episode. -/
theorem every_physics {t : Trig K} {a : Args K} {c : Config K} (h : create t a = .ok c) (parallel : Bool) {p : Physics K} (hp : a.Allows p)
    (us : List (State K)) : ∃ u : Physics K, u.Unit ∧ (reset c parallel u us).physics = p := by
  obtain ⟨h1, h2, h3, h4, -, -, rfl, -⟩ := create_ok h
  obtain ⟨p1, p2, p3, p4⟩ := hp
  obtain ⟨u1, g1, e1⟩ := uniform_onto (has_ends.mp p1)
  obtain ⟨u2, g2, e2⟩ := uniform_onto (has_ends.mp p2)
  obtain ⟨u3, g3, e3⟩ := uniform_onto (has_ends.mp p3)
  obtain ⟨u4, g4, e4⟩ := uniform_onto (has_ends.mp p4)
  refine ⟨⟨u1, u2, u3, u4⟩, ⟨g1, g2, g3, g4⟩, ?_⟩
  simp only [reset, drawPhysics, Args.config, e1, e2, e3, e4]

/-- **C79.** The actions: to the left and to the right, and none with `action_noop`; any number with `action_continuous`. -/
theorem num_actions {t : Trig K} {a : Args K} {c : Config K} (h : create t a = .ok c) :
    c.numActions = if a.continuous then none else some (if a.noop then 3 else 2) := by
  obtain ⟨-, -, -, -, -, -, rfl, -⟩ := create_ok h
  change (if a.continuous = true then none else if a.noop = true then some 3 else some 2) = _
  split
  · rfl
  · split <;> rfl

/-- **C79.** Discrete actions may be given as floats. -/
theorem given_as_floats {t : Trig K} {a : Args K} {c : Config K} (h : create t a = .ok c) (hc : a.continuous = false) (e : Env K) (ns : List Nat) :
    execute t c e (.floats (ns.map (↑))) = execute t c e (.ints ns) := by
  obtain ⟨-, -, -, -, -, -, rfl, -⟩ := create_ok h
  have hr : ∀ n : Nat, (relForceOf (n : K) : K) = relForce n := fun n => by
    rw [relForceOf, relForce]
    norm_cast
  have hf : forces (a.config t) e.physics (.floats (ns.map (↑))) = forces (a.config t) e.physics (.ints ns) := by
    rw [forces, forces]
    simp only [Args.config, hc, List.map_map, Function.comp_def, hr]
    rfl
  rw [execute, execute, hf]

/-- **C79.** A discrete action moves cart and pole according to the equations of motion, with the force in the direction of the action. -/
theorem discrete {t : Trig K} (ht : t.Laws) {a : Args K} {c : Config K} (h : create t a = .ok c) (hc : a.continuous = false)
    {p : Physics K} (hp : a.Allows p) (s : State K) {n : Nat} (hn : ∀ m, c.numActions = some m → n < m) :
    ∃ s' r, execute t c (solo p s) (.ints [n]) = .ok (solo p s', r) ∧
      MovesTo t a.gravity a.timedelta p (direction n * (p.force * a.gravity)) s s' := by
  have hpos := allowed_pos h hp
  obtain ⟨-, -, -, -, -, -, rfl, -⟩ := create_ok h
  have hn3 : n < 3 := by
    rw [Config.numActions] at hn
    simp only [Args.config, hc] at hn
    cases hno : a.noop with
    | true => exact hn 3 (by simp [hno])
    | false => exact lt_trans (hn 2 (by simp [hno])) (by decide)
  have he := execute_solo (t := t) (c := a.config t) (p := p) (ch := .ints fun _ => n) hc 0 s
  refine ⟨_, _, he, ?_⟩
  have hf : (relForce n : K) = direction n := by
    match n, hn3 with
    | 0, _ => rfl
    | 1, _ => rfl
    | 2, _ => rfl
  rw [next, Choice.force, hf]
  exact advance_moves ht _ _ hpos s _

/-- **C79.** Likewise for continuous actions. -/
theorem continuous {t : Trig K} (ht : t.Laws) {a : Args K} {c : Config K} (h : create t a = .ok c) (hc : a.continuous = true)
    {p : Physics K} (hp : a.Allows p) (s : State K) (x : K) :
    ∃ s' r, execute t c (solo p s) (.floats [x]) = .ok (solo p s', r) ∧
      MovesTo t a.gravity a.timedelta p (x * (p.force * a.gravity)) s s' := by
  have hpos := allowed_pos h hp
  obtain ⟨-, -, -, -, -, -, rfl, -⟩ := create_ok h
  have he := execute_solo (t := t) (c := a.config t) (p := p) (ch := .floats fun _ => x) trivial 0 s
  refine ⟨_, _, he, ?_⟩
  have hc' : (a.config t).continuous = true := hc
  rw [next, Choice.force, if_pos hc']
  exact advance_moves ht _ _ hpos s _

/-- **C79.** The equations of motion determine the next state. -/
theorem determined {t : Trig K} (ht : t.Laws) {a : Args K} {c : Config K} (h : create t a = .ok c) {p : Physics K} (hp : a.Allows p)
    {s s' s'' : State K} {force : K} (h1 : MovesTo t a.gravity a.timedelta p force s s')
    (h2 : MovesTo t a.gravity a.timedelta p force s s'') : s' = s'' := moves_unique ht (allowed_pos h hp) h1 h2

example : ∃ c, create realTrig defaults = .ok c ∧ (defaults : Args ℝ).Allows { poleMass := 1 / 10, poleLength := 1 / 2, cartMass := 1, force := 1 } :=
  ⟨_, (create_of real_laws defaults_sensible).1 defaults_light, by
    refine ⟨?_, ?_, ?_, ?_⟩ <;> norm_num [defaults, Arg.has]⟩

/-! ## C80 -/

/-- **C80.** Positive arguments are accepted unless the pole is too heavy. -/
theorem accepted_partial {t : Trig K} (ht : t.Laws) {a : Args K} (hs : a.Sensible) (hl : a.Light) : ∃ c, create t a = .ok c :=
  ⟨_, (create_of ht hs).1 hl⟩

example : (defaults : Args ℝ).Sensible ∧ (defaults : Args ℝ).Light := ⟨defaults_sensible, defaults_light⟩

/-- **C80.** Otherwise they are rejected. -/
theorem rejected {t : Trig K} (ht : t.Laws) {a : Args K} (hs : a.Sensible) (hl : ¬ a.Light) : ∀ c, create t a ≠ .ok c := by
  intro c hc
  rcases (create_of ht hs).2 hl with h | h <;> rw [h] at hc <;> cases hc

/-- **C80.** Accepted arguments are positive, ranges are in order, and continuous actions come with a no-op. Missing: the timestep
(`negative_violation`). -/
theorem positive_partial {t : Trig K} {a : Args K} {c : Config K} (h : create t a = .ok c) :
    a.poleMass.Positive ∧ a.poleLength.Positive ∧ a.cartMass.Positive ∧ a.force.Positive ∧ 0 < a.gravity ∧
      (a.continuous = true → a.noop = true) := by
  obtain ⟨h1, h2, h3, h4, h5, h6, -⟩ := create_ok h
  exact ⟨h1, h2, h3, h4, h5, h6⟩

/-- **C80.** Without ranges, the pole is too heavy if its mass is at least twice that of the cart. -/
theorem heavy {a : Args K} (hs : a.Sensible) {m l M f : K} (h1 : a.poleMass = .value m) (h2 : a.poleLength = .value l)
    (h3 : a.cartMass = .value M) (h4 : a.force = .value f) : a.Light ↔ m < 2 * M := by
  obtain ⟨p1, p2, p3, p4, hg, -, -⟩ := hs
  rw [h1] at p1
  rw [h2] at p2
  rw [h3] at p3
  rw [h4] at p4
  have hm : 0 < m := p1
  have hl : 0 < l := p2
  have hM : 0 < M := p3
  have hf : 0 < f * a.gravity := mul_pos p4 hg
  rw [Args.Light, h1, h2, h3, h4]
  simp only [Arg.lo, Arg.hi, uprightAcc]
  have hd : 0 < 4 / 3 * (M + m) - m := by linarith
  have e : m * l * (f * a.gravity / (l * (4 / 3 * (M + m) - m))) = m * (f * a.gravity) / (4 / 3 * (M + m) - m) := by
    field_simp
  rw [e, div_lt_iff₀ hd]
  constructor
  · rintro ⟨-, h⟩
    have : m < 4 / 3 * (M + m) - m := by
      rw [mul_comm] at h
      exact (mul_lt_mul_iff_right₀ hf).mp h
    linarith
  · intro h
    refine ⟨by linarith, ?_⟩
    rw [mul_comm]
    exact (mul_lt_mul_iff_right₀ hf).mpr (by linarith)

/-- **C80.** One step from rest in upright position, with an action of at most full force, changes the velocity of the angle by at most a
tenth of its bound. Missing: the velocity of the location (`velocity_violation`). -/
theorem angle_partial {t : Trig K} (ht : t.Laws) {a : Args K} (hs : a.Sensible) {c : Config K} (h : create t a = .ok c) {p : Physics K}
    (hp : a.Allows p) {x : K} (hx : |x| ≤ 1) {s : State K} (hm : MovesTo t a.gravity a.timedelta p (x * (p.force * a.gravity)) .rest s) :
    10 * |s.angleVel| ≤ c.bounds.angleVel := by
  have hpos := allowed_pos h hp
  have hl : a.Light := by
    by_contra hl
    exact rejected ht hs hl c h
  obtain ⟨p1, p2, p3, p4, hg, hd, -⟩ := hs
  have hle := upright_le ⟨p1, p2, p3, p4, hg⟩ (by linarith [hl.1]) hp hx
  obtain ⟨-, -, -, -, -, -, rfl, -⟩ := create_ok h
  rw [moves_unique ht hpos hm (advance_moves ht _ _ hpos .rest _)]
  simp only [advance, rest_angleAccel ht _ hpos]
  simp only [State.rest, zero_add, Args.config, Args.bounds]
  rw [mul_neg, abs_neg, abs_mul, abs_of_pos hd]
  nlinarith

/-- Without ranges the velocity of the location changes by more than a tenth of its bound at full force: the bound is derived from an
acceleration with the wrong sign (107-109). -/
theorem velocity_violation {t : Trig K} (ht : t.Laws) {a : Args K} (hs : a.Sensible) {m l M f : K} (h1 : a.poleMass = .value m)
    (h2 : a.poleLength = .value l) (h3 : a.cartMass = .value M) (h4 : a.force = .value f) {c : Config K} (h : create t a = .ok c)
    {s : State K} (hm : MovesTo t a.gravity a.timedelta { poleMass := m, poleLength := l, cartMass := M, force := f } (f * a.gravity) .rest s) :
    c.bounds.vel < 10 * |s.vel| := by
  have hp : a.Allows { poleMass := m, poleLength := l, cartMass := M, force := f } := by
    rw [Args.Allows, h1, h2, h3, h4]
    exact ⟨rfl, rfl, rfl, rfl⟩
  have hpos := allowed_pos h hp
  obtain ⟨-, -, -, -, hg, hd, -⟩ := hs
  obtain ⟨-, -, -, -, -, -, rfl, -⟩ := create_ok h
  rw [moves_unique ht hpos hm (advance_moves ht _ _ hpos .rest _)]
  have hden := upright_den hpos
  obtain ⟨q1, q2, q3, q4⟩ := hpos
  dsimp only at q1 q2 q3 q4 hden
  have hT : 0 < M + m := by linarith
  have key := loc_exceeds (mul_pos q4 hg) hT q1 q2 hden
  have hpos' : Physics.Pos { poleMass := m, poleLength := l, cartMass := M, force := f } := ⟨q1, q2, q3, q4⟩
  simp only [advance, rest_locAccel ht _ hpos']
  simp only [State.rest, zero_add, Args.config, Args.bounds, h1, h2, h3, h4, Arg.lo, Arg.hi]
  have hv : 0 < (f * a.gravity + m * l * uprightAcc (f * a.gravity) (M + m) l m) / (M + m) :=
    div_pos (add_pos (mul_pos q4 hg) (mul_pos (mul_pos q1 q2) (div_pos (mul_pos q4 hg) (mul_pos q2 hden)))) hT
  rw [abs_of_pos (mul_pos hd hv)]
  nlinarith

example : ∃ c, create realTrig original = .ok c ∧ (original : Args ℝ).poleMass = .value (1 / 10) :=
  ⟨_, (create_of real_laws original_sensible).1 original_light, rfl⟩

/-- A pole of twice the mass of the cart is rejected, although all arguments are positive. -/
theorem heavy_violation {t : Trig K} (ht : t.Laws) :
    let a : Args K := { original with poleMass := .value 2 }
    a.Sensible ∧ ∀ c, create t a ≠ .ok c := by
  intro a
  have hs : a.Sensible := by
    refine ⟨?_, (original_sensible (K := K)).2.1, (original_sensible (K := K)).2.2.1, (original_sensible (K := K)).2.2.2.1, (original_sensible (K := K)).2.2.2.2.1,
      (original_sensible (K := K)).2.2.2.2.2.1, (original_sensible (K := K)).2.2.2.2.2.2⟩
    exact two_pos
  refine ⟨hs, rejected ht hs ?_⟩
  rw [heavy hs rfl rfl rfl rfl]
  norm_num

/-- The default ranges with poles of up to one kilogram are rejected, although the lightest cart has half a kilogram. -/
theorem range_violation {t : Trig K} (ht : t.Laws) :
    let a : Args K := { defaults with poleMass := .range (1 / 20) 1 }
    a.Sensible ∧ ∀ c, create t a ≠ .ok c := by
  intro a
  have hs : a.Sensible := by
    refine ⟨?_, (defaults_sensible (K := K)).2.1, (defaults_sensible (K := K)).2.2.1, (defaults_sensible (K := K)).2.2.2.1, (defaults_sensible (K := K)).2.2.2.2.1,
      (defaults_sensible (K := K)).2.2.2.2.2.1, (defaults_sensible (K := K)).2.2.2.2.2.2⟩
    constructor <;> norm_num
  refine ⟨hs, rejected ht hs ?_⟩
  rintro ⟨h, -⟩
  norm_num [a, defaults, Arg.lo, Arg.hi] at h

/-- A negative timestep is accepted if both accelerations are negative too. -/
theorem negative_violation {t : Trig K} (ht : t.Laws) :
    let a : Args K := { original with poleMass := .range 9 13, cartMass := .value (1 / 10), timedelta := -1 / 50 }
    ∃ c, create t a = .ok c ∧ c.timedelta < 0 := by
  intro a
  have p1 : a.poleMass.Positive := by constructor <;> norm_num
  have p2 : a.poleLength.Positive := (original_sensible (K := K)).2.1
  have p3 : a.cartMass.Positive := by change (0 : K) < 1 / 10; norm_num
  have p4 : a.force.Positive := (original_sensible (K := K)).2.2.2.1
  have hz : 4 / 3 * (a.cartMass.lo + a.poleMass.lo) - a.poleMass.hi ≠ 0 := by norm_num [a, Arg.lo, Arg.hi]
  refine ⟨a.config t, ?_, ?_⟩
  · rw [create, check_of p1]
    simp only [check_of p2, check_of p3, check_of p4]
    rw [if_neg (by norm_num [a, original, defaults]), if_neg (by simp [a, original, defaults]), bounds_eq t p1 p2 p3 hz, if_pos]
    · rfl
    refine ⟨?_, div_pos ht.pi_pos (by norm_num), ?_⟩
    · norm_num [Args.bounds, a, original, defaults, Arg.lo, Arg.hi, uprightAcc]
    · norm_num [Args.bounds, a, original, defaults, Arg.lo, Arg.hi, uprightAcc]
  · norm_num [Args.config, a]

/-! ## C81 -/

/-- **C81.** Instances in parallel: after any number of steps exactly those are left whose episode would still run if they were executed alone
with the same random numbers and actions, and each is in the state it would then be in. -/
theorem independent (t : Trig K) {c : Config K} (u : Physics K) (us : List (State K)) {choice : Nat → Choice K} (hc : ∀ n, (choice n).ok c)
    (n : Nat) : ∃ e, together t c u us choice n = .ok e ∧ e.indices = running t c u us choice n ∧
      e.states.map (fun s => some (solo e.physics s)) = e.indices.map (alone t c u us choice · n) := by
  refine ⟨_, together_aligned hc n, rfl, ?_⟩
  simp only [aligned, List.map_map]
  apply List.map_congr_left
  intro k hk
  rcases alone_solo (t := t) (u := u) (us := us) hc k n with e | e
  · have := (List.mem_filter.mp hk).2
    rw [e] at this
    cases this
  · exact e.symm

/-- **C81.** What a step returns: for each instance which was left, the end of its episode and the reward it would get alone, and the indices
and observations of those which are left now. -/
theorem returned (t : Trig K) {c : Config K} (u : Physics K) (us : List (State K)) {choice : Nat → Choice K} (hc : ∀ n, (choice n).ok c)
    {n : Nat} {e : Env K} (he : together t c u us choice n = .ok e) :
    ∃ e' r, execute t c e ((choice n).actions e.indices) = .ok (e', r) ∧ together t c u us choice (n + 1) = .ok e' ∧
      r.indices = running t c u us choice (n + 1) ∧
      (∀ (i : Nat) k, (running t c u us choice n)[i]? = some k → ∃ e₁ e₁' r₁, alone t c u us choice k n = some e₁ ∧
        execute t c e₁ ((choice n).actions [k]) = .ok (e₁', r₁) ∧ r.terminal[i]?.toList = r₁.terminal ∧ r.rewards[i]?.toList = r₁.rewards) ∧
      (∀ (i : Nat) k, (running t c u us choice (n + 1))[i]? = some k → ∃ e₁ e₁' r₁, alone t c u us choice k n = some e₁ ∧
        execute t c e₁ ((choice n).actions [k]) = .ok (e₁', r₁) ∧ r.states[i]?.toList = r₁.states) ∧
      r.terminal.length = (running t c u us choice n).length ∧ r.rewards.length = (running t c u us choice n).length ∧
      r.states.length = (running t c u us choice (n + 1)).length := by
  rw [together_aligned hc] at he
  cases he
  refine ⟨_, _, execute_aligned hc n, together_aligned hc (n + 1), rfl, ?_, ?_, by simp, by simp, by simp⟩
  · intro i k hk
    have hs := (List.mem_filter.mp (List.mem_of_getElem? hk)).2
    rcases alone_solo (t := t) (u := u) (us := us) hc k n with e | e
    · rw [e] at hs
      cases hs
    refine ⟨_, _, _, e, execute_solo (hc n) k _, ?_, ?_⟩
    · simp only [List.getElem?_map, hk, Option.map_some, Option.toList_some]
      rw [alone_succ hc hs]
      cases terminal c.bounds (next t c (drawPhysics c u) (choice n) k (soloState t c u us choice k n)) <;> simp
    · simp only [List.getElem?_map, hk, Option.map_some, Option.toList_some]
  · intro i k hk
    have hm := List.mem_of_getElem? hk
    have hs := alone_prev (List.mem_filter.mp hm).2
    rcases alone_solo (t := t) (u := u) (us := us) hc k n with e | e
    · rw [e] at hs
      cases hs
    refine ⟨_, _, _, e, execute_solo (hc n) k _, ?_⟩
    simp only [List.getElem?_map, hk, Option.map_some, Option.toList_some]
    rw [soloState_succ hc hm]

/-- **C81.** Neither one action nor one for each instance which is left: an error. -/
theorem misfit (t : Trig K) (c : Config K) (e : Env K) (actions : Actions K)
    (h : ∀ n, (∃ xs, actions = .floats xs ∧ xs.length = n) ∨ (∃ xs, actions = .ints xs ∧ xs.length = n) → n ≠ 1 ∧ n ≠ e.states.length) :
    ∃ err, execute t c e actions = .error err := by
  rw [execute]
  cases hf : forces c e.physics actions with
  | error err => exact ⟨_, rfl⟩
  | ok xs =>
    have hx : xs.length ≠ 1 ∧ xs.length ≠ e.states.length := by
      cases actions with
      | floats ys =>
        have := h ys.length (.inl ⟨ys, rfl, rfl⟩)
        rw [forces] at hf
        cases hf
        rwa [List.length_map]
      | ints ys =>
        have := h ys.length (.inr ⟨ys, rfl, rfl⟩)
        rw [forces] at hf
        split at hf
        · cases hf
        · cases hf
          rwa [List.length_map]
    have hb : broadcast e.states.length xs = .error .shape := by
      rw [broadcast.eq_def, if_neg hx.2]
      split
      · exact absurd rfl hx.1
      · rfl
    dsimp only
    rw [hb]
    exact ⟨_, rfl⟩

example : ∀ n, (∃ xs, (Actions.ints [1, 0] : Actions ℝ) = .floats xs ∧ xs.length = n) ∨ (∃ xs, (Actions.ints [1, 0] : Actions ℝ) = .ints xs ∧ xs.length = n) →
    n ≠ 1 ∧ n ≠ [State.rest (K := ℝ), .rest, .rest].length := by
  rintro n (⟨xs, h, -⟩ | ⟨xs, h, rfl⟩) <;> cases h
  decide

example : (Choice.ints fun _ => 1 : Choice ℝ).ok ((defaults : Args ℝ).config realTrig) := rfl
example : (Choice.floats fun _ => 1 : Choice ℝ).ok ((defaults : Args ℝ).config realTrig) := trivial

/-! ## C82 -/

/-- **C82.** What is observed and announced: the angle, then the velocities of angle and location, and the location, if asked for. The location
is bounded exactly if it is observed. -/
theorem observed {t : Trig K} {a : Args K} {c : Config K} (h : create t a = .ok c) (s : State K) :
    c.view s = s.angle :: ((if a.velocities then [s.angleVel, s.vel] else []) ++ if a.location then [s.loc] else []) ∧
      c.maxValues = some c.bounds.angle :: ((if a.velocities then [some c.bounds.angleVel, some c.bounds.vel] else []) ++ if a.location then [c.bounds.loc] else []) ∧
      c.bounds.loc.isSome = a.location ∧ ∀ b, c.bounds.loc = some b → 0 < b := by
  obtain ⟨-, -, -, -, -, -, rfl, -, hv, -⟩ := create_ok h
  refine ⟨rfl, rfl, ?_, fun b hb => ?_⟩
  · simp only [Args.config, Args.bounds]
    cases a.location <;> rfl
  · simp only [Args.config, Args.bounds] at hb hv
    split at hb
    · cases hb
      exact hv
    · cases hb

/-- **C82.** The states at the beginning of an episode are in the announced range, if the initial maxima do not exceed the bounds (which the
environment does not check, see `initial_violation`). -/
theorem initial_partial {t : Trig K} {a : Args K} {c : Config K} (h : create t a = .ok c) (h1 : |a.maxVel| ≤ c.bounds.vel)
    (h2 : |a.maxAngle| ≤ c.bounds.angle) (h3 : |a.maxAngleVel| ≤ c.bounds.angleVel) (parallel : Bool) (u : Physics K) {us : List (State K)}
    (hu : ∀ x ∈ us, x.Unit) : ∀ s ∈ (reset c parallel u us).states, InRange c.maxValues (c.view s) := by
  obtain ⟨-, -, -, -, -, -, rfl, -, hv, -⟩ := create_ok h
  intro s hs
  obtain ⟨x, hx, rfl⟩ := List.mem_map.mp hs
  refine view_inRange (initial_inside rfl (fun b hb => ?_) h1 h2 h3 (hu x hx))
  simp only [Args.config, Args.bounds] at hb hv
  split at hb
  · cases hb
    exact hv.le
  · cases hb

/-- **C82.** The states after a step which does not end the episode are in the announced range. -/
theorem continues {t : Trig K} {c : Config K} {e e' : Env K} {actions : Actions K} {r : Result K} (h : execute t c e actions = .ok (e', r))
    (hr : e.parallel = true ∨ ∀ d ∈ r.terminal, d = false) : ∀ x ∈ r.states, InRange c.maxValues x := by
  have hi := step_inside h hr
  obtain ⟨xs, fs, -, -, h⟩ := execute_ok h
  dsimp only at h
  obtain ⟨-, -, -, -, rfl⟩ := h
  intro x hx
  obtain ⟨s, hs, rfl⟩ := List.mem_map.mp hx
  exact view_inRange (hi s hs)

/-- **C82.** The episode of an instance which is executed alone ends exactly when a bound is exceeded, and every step is rewarded by one. -/
theorem ends {t : Trig K} {c : Config K} {p : Physics K} {s : State K} {actions : Actions K} {e' : Env K} {r : Result K}
    (h : execute t c (solo p s) actions = .ok (e', r)) :
    ∃ s', e' = solo p s' ∧ r.states = [c.view s'] ∧ r.rewards = [1] ∧ (r.terminal = [true] ∧ ¬ Inside c.bounds s' ∨ r.terminal = [false] ∧ Inside c.bounds s') := by
  obtain ⟨xs, fs, -, h2, h⟩ := execute_ok h
  dsimp only at h
  obtain ⟨g1, g2, g3, g4, rfl⟩ := h
  have hf : ∃ f, fs = [f] := by
    rw [broadcast.eq_def] at h2
    split at h2
    · next hl =>
      cases h2
      exact List.length_eq_one_iff.mp hl
    · split at h2
      · cases h2
        exact ⟨_, rfl⟩
      · cases h2
  obtain ⟨f, rfl⟩ := hf
  refine ⟨advance t c.gravity c.timedelta p s f, ?_, ?_, ?_, ?_⟩
  · cases e'
    simp only at g1 g2 g3 g4
    rw [g1, g2, g3, g4]
    rfl
  · dsimp only
    rw [g3]
    rfl
  · rfl
  · change [terminal c.bounds (advance t c.gravity c.timedelta p s f)] = _ ∧ _ ∨ [terminal c.bounds (advance t c.gravity c.timedelta p s f)] = _ ∧ _
    rw [← terminal_iff]
    cases terminal c.bounds (advance t c.gravity c.timedelta p s f) <;> simp

/-- **C82.** If the velocities are part of the observations, the agent can see the end: an observation is outside of the announced range exactly
at the end of an episode. -/
theorem visible {t : Trig K} {a : Args K} {c : Config K} (hc : create t a = .ok c) (hv : a.velocities = true) {p : Physics K} {s : State K}
    {actions : Actions K} {e' : Env K} {r : Result K} (h : execute t c (solo p s) actions = .ok (e', r)) :
    ∃ x, r.states = [x] ∧ (r.terminal = [true] ∧ ¬ InRange c.maxValues x ∨ r.terminal = [false] ∧ InRange c.maxValues x) := by
  obtain ⟨-, -, -, -, -, -, rfl, -⟩ := create_ok hc
  obtain ⟨s', -, h1, -, h2⟩ := ends h
  refine ⟨_, h1, ?_⟩
  have hl : (a.config t).location = false → (a.config t).bounds.loc = none := by
    intro hl
    have hl : a.location = false := hl
    simp only [Args.config, Args.bounds, hl]
    rfl
  rcases h2 with ⟨h2, h3⟩ | ⟨h2, h3⟩
  · exact .inl ⟨h2, fun hr => h3 (inRange_inside hv hl hr)⟩
  · exact .inr ⟨h2, view_inRange h3⟩

/-- The default arguments satisfy the conditions of `initial_partial`. -/
example : ∃ c, create realTrig defaults = .ok c ∧ |(defaults : Args ℝ).maxVel| ≤ c.bounds.vel ∧ |(defaults : Args ℝ).maxAngle| ≤ c.bounds.angle ∧
    |(defaults : Args ℝ).maxAngleVel| ≤ c.bounds.angleVel := by
  refine ⟨_, (create_of real_laws defaults_sensible).1 defaults_light, ?_, ?_, ?_⟩
  · norm_num [defaults, Args.config, Args.bounds, Arg.lo, Arg.hi, uprightAcc, abs_of_pos]
  · have := Real.two_le_pi
    have e : |(defaults : Args ℝ).maxAngle| = 1 / 20 := by norm_num [defaults, abs_of_pos]
    rw [e]
    change 1 / 20 ≤ Real.pi / 4
    linarith
  · norm_num [defaults, Args.config, Args.bounds, Arg.lo, Arg.hi, uprightAcc, abs_of_pos]

/-- With an initial maximum of the angle of two radians, an episode may begin outside of the announced range. -/
theorem initial_violation : ∃ (c : Config ℝ) (u : Physics ℝ) (x : State ℝ), create realTrig { defaults with maxAngle := 2 } = .ok c ∧
    u.Unit ∧ x.Unit ∧ ∃ s ∈ (reset c false u [x]).states, ¬ InRange c.maxValues (c.view s) := by
  have hs : ({ defaults with maxAngle := 2 } : Args ℝ).Sensible := defaults_sensible
  have hl : ({ defaults with maxAngle := 2 } : Args ℝ).Light := defaults_light
  refine ⟨_, ⟨0, 0, 0, 0⟩, ⟨0, 0, 1, 0⟩, (create_of real_laws hs).1 hl, ?_, ?_, _, List.mem_singleton.mpr rfl, ?_⟩
  · norm_num [Physics.Unit, unit]
  · norm_num [State.Unit, unit]
  · rintro ⟨h, -⟩
    have h : |uniform (-2 : ℝ) 2 1| ≤ Real.pi / 4 := h
    have := Real.pi_le_four
    norm_num [uniform] at h
    linarith

/-! ## C83 -/

/-- **C83.** The actions given to the environment are not changed. Missing: float actions for parallel instances with `action_continuous`
(`actions_violation`). -/
theorem actions_partial (c : Config K) (e : Env K) (actions : Actions K) (h : c.continuous = false ∨ e.parallel = false ∨ ∃ xs, actions = .ints xs) :
    actionsAfter c e actions = actions := by
  cases actions with
  | ints xs => rfl
  | floats xs =>
    rw [actionsAfter]
    rcases h with h | h | ⟨xs, h⟩
    · simp [h]
    · simp [h]
    · cases h

example : ((defaults : Args ℝ).config realTrig).continuous = false := rfl

/-- Continuous actions of parallel instances are replaced by forces. -/
theorem actions_violation {t : Trig K} (ht : t.Laws) : ∃ c : Config K, create t { original with continuous := true } = .ok c ∧
    let e := reset c true ⟨0, 0, 0, 0⟩ [⟨0, 0, 0, 0⟩]
    (execute t c e (.floats [1])).toOption.isSome = true ∧ actionsAfter c e (.floats [1]) ≠ .floats [1] := by
  have hs : ({ original with continuous := true } : Args K).Sensible := by
    refine ⟨(original_sensible (K := K)).1, (original_sensible (K := K)).2.1, (original_sensible (K := K)).2.2.1, (original_sensible (K := K)).2.2.2.1, (original_sensible (K := K)).2.2.2.2.1,
      (original_sensible (K := K)).2.2.2.2.2.1, fun _ => rfl⟩
  have hl : ({ original with continuous := true } : Args K).Light := original_light
  refine ⟨_, (create_of ht hs).1 hl, rfl, ?_⟩
  intro h
  simp only [actionsAfter, Args.config, reset, drawPhysics, uniform, original, defaults, Arg.lo, Arg.hi] at h
  norm_num at h

end Verif.Props.Cart
