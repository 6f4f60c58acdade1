import Verif.Policy.InSpace
import Verif.Policy.Rational
import Verif.Policy.Real

/-!
# Properties C52–C56: actions given by a policy

* C52: every action lies in its action space (`act_in_space_partial`, `mask_violation`).
* C53: a sampling temperature of zero gives the deterministic action (`zero_temperature`).
* C54: an action without a temperature of its own is sampled with the default temperature
  (`temperature_partial`, `temperature_violation`).
* C55: the bounded transformation reaches every action and is inverted by the log-probability
  (`reaches_partial`, `inverts_partial`, `tanh_density`, `reach_violation`).
* C56: there is a default distribution for every action specification
  (`default_partial`, `default_violation`).
-/

namespace Verif.Props.Policy

open Verif.Policy

variable {K : Type} [Field K] [LinearOrder K] [IsStrictOrderedRing K]

/-! ### C52 -/

/-- Every action lies in its action space, deterministic or sampled at any temperature.  Missing:
masked integer actions with more than a million values or with network outputs near the least
float, see `mask_violation`. -/
theorem act_in_space_partial {f : Fns K} (hf : Laws f) (temperature : String → K)
    (deterministic : Bool) (cs : List (Component K)) (i : Nat) (c : Component K)
    (hc : cs[i]? = some c) (s : Space K) (hs : s.Valid) (hd : c.dist.For s)
    (hx : c.outputs.For s) (hz : c.noise.For c.dist c.outputs) (hm : c.Moderate) :
    ∃ a, (act f temperature deterministic cs)[i]? = some (c.name, a) ∧ InSpace s a := by
  refine ⟨_, ?_, component_in_space hf (temperature c.name) deterministic c s hs hd hx hz hm⟩
  simp only [act, List.getElem?_map, hc, Option.map_some]

/-- An integer action of three values, the first of them masked although it is the best. -/
def masked : Component ℚ :=
  { name := "a"
    dist := .categorical true
    outputs := { first := 0, second := 0, values := [3, 1, 2], mask := some [false, true, true] }
    noise := { first := 0, second := 0, values := [1 / 2, 1 / 2, 1 / 3] } }

example : act stepFns (fun _ => 1) false [masked] = [("a", .int 2)] ∧
    ∃ a, (act stepFns (fun _ => 1) false [masked])[0]? = some ("a", a) ∧
      InSpace (.int 3 (some [false, true, true])) a := by
  refine ⟨by decide +kernel, act_in_space_partial step_laws _ _ _ 0 masked rfl _
    ⟨by decide, fun m hm => ?_⟩ trivial ⟨rfl, rfl⟩ ⟨rfl, ?_⟩ fun _ => ⟨by decide, ?_⟩⟩
  · cases hm
    decide
  · decide +kernel
  · decide +kernel

/-- A float action between 2 and 6. -/
def bounded : Component ℚ :=
  { name := "b"
    dist := .gaussian (some .tanh) (some 2) (some 6)
    outputs := { first := 1, second := 0, values := [], mask := none }
    noise := { first := -5, second := 0, values := [] } }

example : act stepFns (fun _ => 0) false [bounded, masked] =
      [("b", .float 5), ("a", .int 2)] ∧
    ∃ a, (act stepFns (fun _ => 1) false [bounded])[0]? = some ("b", a) ∧
      InSpace (.float (some 2) (some 6)) a := by
  refine ⟨by decide +kernel, act_in_space_partial step_laws _ _ _ 0 bounded rfl _
    ?_ ⟨rfl, rfl, none, rfl⟩ trivial trivial trivial⟩
  intro l h h1 h2
  cases h1
  cases h2
  decide +kernel

/-- An integer action with `n + 1` values of which the first is masked, all network outputs 0. -/
def wide (n : Nat) : Component K :=
  { name := "a"
    dist := .categorical false
    outputs := { first := 0, second := 0, values := List.replicate (n + 1) 0
                 mask := some (false :: List.replicate n true) }
    noise := { first := 0, second := 0, values := List.replicate (n + 1) (1 / 2) } }

/-- With more than a million allowed values all of them count as impossible, and sampling gives the
masked value 0. -/
theorem mask_violation {f : Fns K} (hf : Laws f) :
    let c : Component K := wide 1000001
    let s : Space K := .int 1000002 c.outputs.mask
    s.Valid ∧ c.dist.For s ∧ c.outputs.For s ∧ c.noise.For c.dist c.outputs ∧
      c.dist.sample f c.outputs 1 c.noise = .int 0 ∧ ¬ InSpace s (.int 0 : Action K) := by
  intro c s
  have he : (eps : K) ≤ 1 := by linarith [eps_lt (K := K)]
  have hh : eps ≤ (1 / 2 : K) ∧ (1 / 2 : K) < 1 - eps := by
    constructor <;> linarith [eps_lt (K := K)]
  have hmask : ∀ m, c.outputs.mask = some m → m = false :: List.replicate 1000001 true := by
    intro m hm
    exact (Option.some.inj hm).symm
  refine ⟨⟨by omega, fun m hm => ?_⟩, trivial, ⟨List.length_replicate .., rfl⟩, ⟨?_, ?_⟩, ?_, ?_⟩
  · rw [hmask m hm]
    exact ⟨by rw [List.length_cons, List.length_replicate],
      List.mem_cons_of_mem _ (List.mem_replicate.2 ⟨by omega, rfl⟩)⟩
  · show (List.replicate _ _).length = (List.replicate _ _).length
    rw [List.length_replicate, List.length_replicate]
  · intro u hu
    rw [(List.mem_replicate.1 hu).2]
    exact hh
  · have hp : (categoricalParams f none (some (false :: List.replicate 1000001 true))
        (List.replicate (1000001 + 1) (0 : K))).probabilities.length = 1000001 + 1 := by
      rw [params_length, List.length_replicate]
      intro m hm
      rw [← Option.some.inj hm, List.length_cons, List.length_replicate, List.length_replicate]
    exact congrArg Action.int (sample_impossible f _ 1 (1 / 2) 1000001 he
      (by rw [params_logits, List.length_map]) hp (wide_probabilities hf 1000001 (by omega)))
  · intro h
    have := h.2 _ rfl
    rw [List.getElem?_cons_zero] at this
    exact absurd this (by decide)

/-! ### C53 -/

/-- With every temperature below `eps`, sampling gives the deterministic actions, whatever the
random numbers. -/
theorem zero_temperature (f : Fns K) (temperature other : String → K) (cs : List (Component K))
    (h : ∀ c ∈ cs, temperature c.name < eps) :
    act f temperature false cs = act f other true cs := by
  refine List.map_congr_left fun c hc => ?_
  have ht := h c hc
  simp only [if_true, Bool.false_eq_true, if_false]
  congr 1
  cases c.dist with
  | bernoulli => simp only [ActionDist.sample, ActionDist.mode, bernoulliSample, if_pos ht, bernoulliMode]
  | categorical => simp only [ActionDist.sample, ActionDist.mode, categoricalSample, if_pos ht, categoricalMode]
  | gaussian => simp only [ActionDist.sample, ActionDist.mode, gaussianSample, if_pos ht, gaussianMode]
  | beta => simp only [ActionDist.sample, ActionDist.mode, betaSample, if_pos ht, betaMode]

example : act stepFns (fun _ => 0) false [bounded, masked] =
    act stepFns (fun _ => 7) true [bounded, masked] :=
  zero_temperature _ _ _ _ fun _ _ => eps_pos

example : act stepFns (fun _ => 1) false [bounded] ≠ act stepFns (fun _ => 1) true [bounded] := by
  decide +kernel

/-! ### C54 -/

/-- The temperature of an action: the given one, or 1.0 if none is given for it. -/
def documentedTemperature (given : Option (Temperature K)) (name : String) : K :=
  match given with
  | none => 1
  | some (.shared t) => t
  | some (.perAction ts) => match ts.lookup name with
    | some t => t
    | none => 1

/-- An action has its documented temperature.  Missing: a dictionary without an entry for the
action, see `temperature_violation`. -/
theorem temperature_partial (given : Option (Temperature K)) (actions : List String)
    (name : String) (t : K) (h : temperatureOf given actions name = .ok t)
    (hg : ∀ ts, given = some (.perAction ts) → (ts.lookup name).isSome) :
    t = documentedTemperature given name := by
  unfold temperatureOf at h
  split at h
  · cases h
    rfl
  · cases h
    rfl
  · rename_i ts
    obtain ⟨t', ht'⟩ := Option.isSome_iff_exists.1 (hg ts rfl)
    split at h
    · cases h
      simp only [documentedTemperature, ht', Option.getD_some]
    · cases h

example : (2 : ℚ) = documentedTemperature (some (.perAction [("a", 2)])) "a" :=
  temperature_partial (some (.perAction [("a", 2)])) ["a", "b"] "a" 2 rfl
    fun ts h => by cases h; decide

/-- An action which a temperature dictionary leaves out has temperature 0.0 instead of the default
1.0, and is then never sampled. -/
theorem temperature_violation :
    (∀ (ts : List (String × K)) (actions : List String) (name : String),
      (ts.all fun e => actions.contains e.1) → ts.lookup name = none →
      temperatureOf (some (.perAction ts)) actions name = .ok 0 ∧
      documentedTemperature (some (.perAction ts)) name = 1) ∧
    ∀ (f : Fns K) (c : Component K), c.dist.sample f c.outputs 0 c.noise = c.dist.mode f c.outputs := by
  constructor
  · intro ts actions name h1 h2
    simp only [temperatureOf, if_pos h1, h2, Option.getD_none, documentedTemperature, and_self]
  · intro f c
    have := zero_temperature f (fun _ => 0) (fun _ => 0) [c] (by intro c _; exact eps_pos)
    simpa [act] using this

example : temperatureOf (some (.perAction [("a", (2 : ℚ))])) ["a", "b"] "b" = .ok 0 ∧
    documentedTemperature (some (.perAction [("a", (2 : ℚ))])) "b" = 1 :=
  temperature_violation.1 _ _ _ (by decide) (by decide)

/-! ### C55 -/

/-- The action lies strictly within the bounds. -/
def Inside (lo hi : Option K) (a : K) : Prop :=
  (∀ l, lo = some l → l < a) ∧ (∀ h, hi = some h → a < h)

/-- Every action strictly within its bounds can be sampled, whatever the network outputs, at every
temperature of at least `eps`.  Missing: the Gaussian with clipping and one bound, see
`reach_violation`. -/
theorem reaches_partial {f : Fns K} (hf : Laws f) (d : ActionDist K) (lo hi : Option K)
    (hs : (Space.float lo hi).Valid) (hd : d.For (.float lo hi))
    (hb : lo.isSome = hi.isSome) (x : Outputs K) (t : K) (ht : eps ≤ t) (a : K)
    (ha : Inside lo hi a) :
    ∃ z : Noise K, z.For d x ∧ d.sample f x t z = .float a := by
  cases d with
  | bernoulli => exact hd.elim
  | categorical => exact hd.elim
  | gaussian tr l h =>
    obtain ⟨rfl, rfl, given, hg⟩ := hd
    obtain ⟨y, hy⟩ := bound_reaches hf given tr lo hi hs hg hb a ha.1 ha.2
    have hsd := gaussian_stddev_pos hf lo hi x.first x.second
    have htp : 0 < t := lt_of_lt_of_le eps_pos ht
    generalize hp : gaussianParams f lo hi x.first x.second = p at hsd
    refine ⟨⟨(y - p.mean) / (p.stddev * t), 0, []⟩, trivial, ?_⟩
    simp only [ActionDist.sample, gaussianSample, hp, if_neg (not_lt.2 ht)]
    have e : p.mean + p.stddev * t * ((y - p.mean) / (p.stddev * t)) = y := by
      have h1 : p.stddev ≠ 0 := ne_of_gt hsd
      have h2 : t ≠ 0 := ne_of_gt htp
      field_simp
      ring
    rw [e, hy]
  | beta l h =>
    obtain ⟨rfl, rfl⟩ := hd
    have h1 := ha.1 l rfl
    have h2 := ha.2 h rfl
    refine ⟨⟨h - a, a - l, []⟩, ⟨by dsimp only; linarith, by dsimp only; linarith⟩, ?_⟩
    simp only [ActionDist.sample, betaSample, if_neg (not_lt.2 ht)]
    have e : l + (h - l) * ((a - l) / (h - a + (a - l))) = a := by
      have h3 : h - l ≠ 0 := by
        intro e
        linarith
      have h4 : h - a + (a - l) = h - l := by ring
      rw [h4]
      field_simp
      ring
    rw [e]

example : ∃ z : Noise ℚ, z.For (.beta 0 1) bounded.outputs ∧
    (ActionDist.beta 0 1).sample stepFns bounded.outputs 1 z = .float (1 / 3) := by
  refine reaches_partial step_laws (.beta 0 1) (some 0) (some 1) ?_ ⟨rfl, rfl⟩ rfl _ 1 ?_ _
    ⟨?_, ?_⟩
  · intro l h h1 h2
    cases h1
    cases h2
    decide +kernel
  · decide +kernel
  · intro l h
    cases h
    decide +kernel
  · intro l h
    cases h
    decide +kernel

/-- The log-probability undoes the transformation to the bounds: transforming its value again gives
the action, with `tanh` up to `eps / 2` of the width of the action space.  Missing: clipping with
one bound, see `reach_violation`. -/
theorem inverts_partial {f : Fns K} (hf : Laws f) (given t : Option Transform) (lo hi : Option K)
    (hs : (Space.float lo hi).Valid) (hg : gaussianTransform given lo hi = .ok t)
    (hb : lo.isSome = hi.isSome) (a : K) (ha : InSpace (.float lo hi) (.float a)) :
    (t ≠ some .tanh → bound f t lo hi (unbound f t lo hi a) = a) ∧
      ∀ l h, lo = some l → hi = some h →
        |bound f t lo hi (unbound f t lo hi a) - a| ≤ (h - l) * (eps / 2) :=
  bound_unbound hf given t lo hi hs hg hb a ha.1 ha.2

example : bound stepFns (some .clipping) (some 2) (some 6)
    (unbound stepFns (some .clipping) (some 2) (some 6) 3) = 3 := by
  refine (inverts_partial step_laws (some .clipping) (some .clipping) (some 2) (some 6) ?_ rfl rfl 3
    ⟨?_, ?_⟩).1 (by decide)
  · intro l h h1 h2
    cases h1
    cases h2
    decide +kernel
  · intro l h
    cases h
    decide +kernel
  · intro l h
    cases h
    decide +kernel

/-- Likewise for the beta distribution, whose log-probability is a function of a number between 0
and 1. -/
theorem beta_inverts {lo hi : K} (h : lo < hi) (a : K) : lo + (hi - lo) * betaUnit lo hi a = a := by
  have h1 : hi - lo ≠ 0 := by
    intro e
    linarith
  unfold betaUnit
  field_simp
  ring

/-- With `tanh` the inverse is exact away from the bounds. -/
theorem tanh_inverts {f : Fns K} (hf : Laws f) {l h : K} (hlh : l < h) (x : K)
    (hx : -(1 - eps) ≤ f.tanh x ∧ f.tanh x ≤ 1 - eps) :
    unbound f (some .tanh) (some l) (some h) (bound f (some .tanh) (some l) (some h) x) = x := by
  simp only [bound, unbound, unscale_scale hlh, clip_self hx.1 hx.2, hf.atanh_tanh]

example : betaUnit (2 : ℚ) 6 3 = 1 / 4 ∧ (2 : ℚ) + (6 - 2) * betaUnit 2 6 3 = 3 :=
  ⟨by decide +kernel, beta_inverts (by decide +kernel) 3⟩

example : unbound stepFns (some .tanh) (some 2) (some 6)
    (bound stepFns (some .tanh) (some 2) (some 6) 1) = 1 :=
  tanh_inverts step_laws (by decide +kernel) 1 (by decide +kernel)

/-- With `tanh` the log-probability is that of the Gaussian minus the logarithm of the derivative
of `tanh`, so that it is a log-density of the transformed value. -/
theorem tanh_density (c : ℝ) (lo hi : Option ℝ) (p : GaussianParams ℝ) (a : ℝ) :
    let x := unbound realFns (some .tanh) lo hi a
    gaussianLogProb realFns c (some .tanh) lo hi p a =
      gaussianLogProb realFns c none none none p x - Real.log (1 - Real.tanh x ^ 2) := by
  intro x
  show gaussianLogProb realFns c none none none p x -
    2 * (Real.log 2 - x - Real.log (1 + Real.exp (-2 * x))) = _
  rw [log_one_sub_tanh_sq]

/-- Clipping with one bound: only the actions up to 1 above a lower bound below 1 are reached, and
only the bound itself if it is above 1; an action that is not reached is not given back. -/
theorem reach_violation (f : Fns K) (l : K) :
    gaussianTransform (some .clipping) (some l) none = .ok (some .clipping) ∧
    (∀ (p : GaussianParams K) (t z : K),
      gaussianSample f (some .clipping) (some l) none p t z ≤ max l 1) ∧
    (1 ≤ l → ∀ (p : GaussianParams K) (t z : K),
      gaussianSample f (some .clipping) (some l) none p t z = l) ∧
    ∀ a, max l 1 < a → bound f (some .clipping) (some l) none
      (unbound f (some .clipping) (some l) none a) ≠ a := by
  have h1 : ∀ x, bound f (some .clipping) (some l) none x ≤ max l 1 := fun x =>
    max_le_max (le_refl l) (min_le_right ..)
  refine ⟨rfl, fun p t z => h1 _, fun hl p t z => ?_, fun a ha e => ?_⟩
  · exact max_eq_left (le_trans (min_le_right ..) hl)
  · have := h1 (unbound f (some .clipping) (some l) none a)
    rw [e] at this
    exact absurd ha (not_lt.2 this)

example : gaussianSample stepFns (some .clipping) (some 5) none ⟨100, 1, 0⟩ 1 3 = 5 :=
  (reach_violation stepFns 5).2.2.1 (by decide +kernel) _ _ _

/-! ### C56 -/

/-- There is a default distribution for every action.  Missing: float actions with one bound, see
`default_violation`. -/
theorem default_partial (useBeta : Bool) (s : Space K)
    (h : ∀ lo hi, s = .float lo hi → lo.isSome = hi.isSome) :
    ∃ d, defaultDist useBeta s = .ok d ∧ d.For s := by
  cases s with
  | bool => exact ⟨_, rfl, trivial⟩
  | int => exact ⟨_, rfl, trivial⟩
  | float lo hi =>
    have hb := h lo hi rfl
    cases lo with
    | none =>
      cases hi with
      | none => cases useBeta <;> exact ⟨.gaussian none none none, rfl, rfl, rfl, none, rfl⟩
      | some u => exact absurd hb (by simp)
    | some l =>
      cases hi with
      | none => exact absurd hb (by simp)
      | some u =>
        cases useBeta
        · exact ⟨.gaussian (some .tanh) (some l) (some u), rfl, rfl, rfl, none, rfl⟩
        · exact ⟨.beta l u, rfl, rfl, rfl⟩

example : ∃ d, defaultDist true (.float (some (0 : ℚ)) (some 1)) = .ok d ∧
    d.For (.float (some 0) (some 1)) :=
  default_partial true _ fun lo hi h => by cases h; rfl

/-- A float action with only a lower or only an upper bound has no default distribution: the
constructor of `Gaussian` or `Beta` fails. -/
theorem default_violation (useBeta : Bool) (b : K) :
    defaultDist useBeta (.float (some b) none) = .error () ∧
    defaultDist useBeta (.float none (some b)) = .error () := by
  cases useBeta <;> exact ⟨rfl, rfl⟩

end Verif.Props.Policy
