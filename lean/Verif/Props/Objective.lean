import Verif.Objective.Lemmas
import Verif.Objective.Rational
import Mathlib.Analysis.SpecialFunctions.ExpDeriv
import Mathlib.Analysis.Calculus.Deriv.Mul
import Mathlib.Analysis.Calculus.Deriv.Add

/-!
# Properties C61, C62, C63: the losses of objectives

C61, value objectives:
* `value_loss_partial`: never negative, and zero exactly if the estimates equal the reward.
* `value_tangent`, `value_gradient`: the derivative is the difference, limited to the threshold.
* `threshold_violation`: with the accepted threshold 0 the loss is always zero.
* `scalar_violation`: the loss per action is not defined if an action is a scalar.

C62, policy gradient objectives:
* `clipped_ge`: clipping never gives a smaller loss.
* `clipped_near`: no effect as long as probabilities change by at most the factor `1 + c`.
* `clipped_beyond`: no further change beyond this factor.
* `gradient_antitone`, `gradient_monotone`: more probability for rewarded actions, less loss.
* `gradient_at_reference`: at the reference, the derivative is minus the reward.
* `ratio_loss`: with importance sampling, the loss is the ratio of the joint probabilities times the
  reward.

C63, sums of objectives:
* `plus_reference_size`, `plus_loss`.
-/

namespace Verif.Props.Objective

open Verif.Policy Verif.Objective

variable {K : Type} [Field K] [LinearOrder K] [IsStrictOrderedRing K]

/-! ## C61 -/

/-- The value loss is not negative, and zero exactly if all estimates equal the reward.  Missing:
actions which are not vectors if `early_reduce` is false, and the threshold 0. -/
theorem value_loss_partial (kind : ValueKind) (huber : Option K) (earlyReduce : Bool)
    (x : Instance K) (hh : ∀ h, huber = some h → 0 < h)
    (hs : earlyReduce = false → ∀ a ∈ x.actions, a.shape.length = 1) :
    ∃ loss, valueLoss kind huber earlyReduce x = .ok loss ∧ 0 ≤ loss ∧
      (loss = 0 ↔ ∀ v ∈ estimates kind earlyReduce x, v = x.reward) := by
  have he : valueEstimates kind earlyReduce x = .ok (estimates kind earlyReduce x) := by
    cases earlyReduce with
    | true => cases kind <;> rfl
    | false =>
      have hs' := hs rfl
      cases kind
      · show concatAxis1 (x.actions.map fun a => (a.shape, a.stateValues)) = _
        rw [concatAxis1_ok]
        · simp [estimates, List.flatMap_map]
        · intro p hp
          obtain ⟨a, ha, rfl⟩ := List.mem_map.1 hp
          exact hs' a ha
      · show concatAxis1 (x.actions.map fun a => (a.shape, a.actionValues)) = _
        rw [concatAxis1_ok]
        · simp [estimates, List.flatMap_map]
        · intro p hp
          obtain ⟨a, ha, rfl⟩ := List.mem_map.1 hp
          exact hs' a ha
  refine ⟨((estimates kind earlyReduce x).map fun v => valueTerm huber (v - x.reward)).sum, ?_, ?_⟩
  · unfold valueLoss
    rw [he]
  · have hn := sum_nonneg_zero
      ((estimates kind earlyReduce x).map fun v => valueTerm huber (v - x.reward)) (by
        intro t ht
        obtain ⟨v, _, rfl⟩ := List.mem_map.1 ht
        exact valueTerm_nonneg huber (fun h e => (hh h e).le) _)
    refine ⟨hn.1, hn.2.trans ?_⟩
    constructor
    · intro h v hv
      have := h _ (List.mem_map.2 ⟨v, hv, rfl⟩)
      rw [valueTerm_zero_iff huber hh] at this
      exact sub_eq_zero.1 this
    · intro h t ht
      obtain ⟨v, hv, rfl⟩ := List.mem_map.1 ht
      rw [h v hv, sub_self]
      exact (valueTerm_zero_iff huber hh 0).2 rfl

/-- Instances for examples. -/
def vectors : Instance ℚ where
  actions := [⟨[2], [-1, -2], [1, 3], [1, 4]⟩, ⟨[1], [-1/2], [2], [5]⟩]
  stateValue := 2
  actionValue := 10/3
  deterministicValue := 4
  reward := 2

example : ∃ loss, valueLoss .state (some 1) false vectors = .ok loss ∧ 0 ≤ loss ∧
    (loss = 0 ↔ ∀ v ∈ estimates .state false vectors, v = vectors.reward) :=
  value_loss_partial .state (some 1) false vectors
    (fun h e => by cases e; norm_num) (fun _ => by decide)

example : (valueLoss .state (some 1) false vectors).toOption = some 1 ∧
    (valueLoss .state (some 1) true vectors).toOption = some 0 := by decide +kernel

/-- The loss of an estimate lies above its tangent, whose slope is the difference limited to the
threshold, by at most half of the squared distance. -/
theorem value_tangent (huber : Option K) (hh : ∀ h, huber = some h → 0 ≤ h) (reward v w : K) :
    let gap := valueTerm huber (w - reward) - valueTerm huber (v - reward) -
      slope huber (v - reward) * (w - v)
    0 ≤ gap ∧ gap ≤ 1 / 2 * (w - v) ^ 2 := by
  have h := valueTerm_tangent huber hh (v - reward) (w - reward)
  have e : w - reward - (v - reward) = w - v := by ring
  rw [e] at h
  exact h

example : valueTerm (some (1 : ℚ)) 3 = 5/2 ∧ slope (some (1 : ℚ)) 3 = 1 ∧
    slope none (3 : ℚ) = 3 := by decide +kernel

/-- The derivative of the loss with respect to an estimate is the difference, limited to the Huber
threshold. -/
theorem value_gradient (huber : Option ℝ) (hh : ∀ h, huber = some h → 0 ≤ h) (reward v : ℝ) :
    HasDerivAt (fun w => valueTerm huber (w - reward)) (slope huber (v - reward)) v := by
  rw [hasDerivAt_iff_isLittleO]
  have hO : (fun w => valueTerm huber (w - reward) - valueTerm huber (v - reward) -
      (w - v) • slope huber (v - reward)) =O[nhds v] fun w => (w - v) ^ 2 := by
    apply Asymptotics.IsBigO.of_bound (1 / 2)
    apply Filter.Eventually.of_forall
    intro w
    have h := value_tangent huber hh reward v w
    dsimp only at h
    rw [smul_eq_mul, mul_comm (w - v)]
    rw [Real.norm_of_nonneg h.1, Real.norm_of_nonneg (sq_nonneg _)]
    exact h.2
  apply hO.trans_isLittleO
  have h2 : (fun w => (w - v) ^ 2) = fun w => (w - v) * (w - v) := by
    funext w; ring
  rw [h2]
  have h3 : (fun w : ℝ => w - v) =o[nhds v] fun _ => (1 : ℝ) := by
    rw [Asymptotics.isLittleO_one_iff]
    have : Filter.Tendsto (fun w : ℝ => w - v) (nhds v) (nhds (v - v)) :=
      Filter.Tendsto.sub_const Filter.tendsto_id v
    rwa [sub_self] at this
  have h4 := h3.mul_isBigO (Asymptotics.isBigO_refl (fun w : ℝ => w - v) (nhds v))
  simpa using h4

example : HasDerivAt (fun w => valueTerm (some (1 : ℝ)) (w - 2)) (slope (some 1) (5 - 2)) 5 :=
  value_gradient (some 1) (fun h e => by cases e; norm_num) 2 5

/-- The constructor accepts the threshold 0 (`value.py:60`, `min_value=0.0`; the documentation says
`float > 0.0`), and then the loss of every estimate is zero. -/
theorem threshold_violation (kind : ValueKind) (x : Instance K) :
    valueLoss kind (some 0) true x = .ok 0 := by
  have h : ∀ d : K, valueTerm (some 0) d = 0 := by
    intro d
    unfold valueTerm
    dsimp only
    split
    · rename_i hd
      have : d = 0 := abs_eq_zero.1 (le_antisymm hd (abs_nonneg d))
      rw [this]; simp
    · simp
  cases kind <;> simp [valueLoss, valueEstimates, h]

/-- If the loss is computed per action, an action which is a scalar makes it fail. -/
theorem scalar_violation (kind : ValueKind) (huber : Option K) (a : ActionData K)
    (sv av dv reward : K) (h : a.shape = []) :
    valueLoss kind huber false ⟨[a], sv, av, dv, reward⟩ = .error .shape := by
  cases kind <;> simp [valueLoss, valueEstimates, concatAxis1, h]

example : valueLoss .state none false (⟨[⟨[], [0], [1], [1]⟩], 1, 1, 1, 1⟩ : Instance ℚ) =
    .error .shape := scalar_violation .state none _ 1 1 1 1 rfl

/-! ## C62 -/

/-- Log-probabilities for examples, with `hyperFns`. -/
def gradient (ls : List ℚ) (reward : ℚ) : Instance ℚ where
  actions := [⟨[ls.length], ls, [], []⟩]
  stateValue := 0
  actionValue := 0
  deterministicValue := 0
  reward := reward

/-- With clipping the loss is never smaller than without. -/
theorem clipped_ge (f : Fns K) (importance earlyReduce : Bool) (c : K) (x : Instance K)
    (reference : List K) (a b : K)
    (ha : gradientLoss f importance none earlyReduce x reference = .ok a)
    (hb : gradientLoss f importance (some c) earlyReduce x reference = .ok b) : a ≤ b := by
  unfold gradientLoss at ha hb
  dsimp only at ha hb
  split at ha
  · rename_i hl
    rw [if_pos hl] at hb
    rw [← Except.ok.inj ha, ← Except.ok.inj hb]
    apply zipWith_le
    intro p _
    unfold gradientTerm
    dsimp only
    apply neg_le_neg
    exact min_le_left _ _
  · exact absurd ha (by simp)

example : (gradientLoss hyperFns true (some (1/2)) false (gradient [-1, -2] 4) [-1, -3]).toOption =
      some (-10) ∧
    (gradientLoss hyperFns true none false (gradient [-1, -2] 4) [-1, -3]).toOption =
      some (-12) := by decide +kernel

/-- Clipping has no effect if the probabilities change by at most the factor `1 + c`: that of each
component of an action, or with `early_reduce` that of all of them together. -/
theorem clipped_near {f : Fns K} (hf : ExpLaws f) (importance earlyReduce : Bool) (c : K)
    (hc : 0 ≤ c) (x : Instance K) (reference : List K)
    (hn : ∀ p ∈ (gradientReference earlyReduce x).zip reference, Near f c p.1 p.2) :
    gradientLoss f importance (some c) earlyReduce x reference =
      gradientLoss f importance none earlyReduce x reference := by
  unfold gradientLoss
  dsimp only
  split
  · rw [zipWith_congr]
    intro p hp
    have h1 : (0 : K) < 1 + c := by linarith
    have hlog := log_factor_nonneg hf hc
    have h := (near_iff hf hc).1 (hn p hp)
    unfold gradientTerm
    dsimp only
    cases importance with
    | false =>
      rw [if_neg (by simp), if_neg (by simp)]
      have ht : gradientTarget f false p.1 p.2 = p.1 := rfl
      rw [ht, clip_eq_self (by linarith [h.1]) (by linarith [h.2]), min_self]
    | true =>
      rw [if_pos rfl, if_pos rfl]
      have ht : gradientTarget f true p.1 p.2 =
          f.exp (clip (p.1 - p.2) (f.log eps) (-f.log eps)) := rfl
      have he := log_eps_nonpos hf
      have hin := clip_zero_in (x := p.1 - p.2) (a := -f.log eps) (by linarith) hlog h.1 h.2
      rw [neg_neg] at hin
      have h2 : f.exp (clip (p.1 - p.2) (f.log eps) (-f.log eps)) ≤ 1 + c :=
        (le_log_iff hf h1).2 hin.2
      have h3 : 1 / (1 + c) ≤ f.exp (clip (p.1 - p.2) (f.log eps) (-f.log eps)) := by
        rw [log_le_iff hf (by positivity), log_inv hf h1]
        exact hin.1
      rw [ht, clip_eq_self h3 h2, min_self]
  · rfl

example : gradientLoss hyperFns true (some (1/2)) true (gradient [-1, -2] 4) [-3] =
    gradientLoss hyperFns true none true (gradient [-1, -2] 4) [-3] :=
  clipped_near hyper_laws true true (1/2) (by norm_num) _ _ (by
    intro p hp
    have : p = (-3, -3) := by
      have e : (gradientReference true (gradient [-1, -2] 4)).zip [(-3 : ℚ)] = [(-3, -3)] := by
        decide +kernel
      rw [e] at hp
      simpa using hp
    subst this
    unfold Near
    decide +kernel)

/-- Once a probability has changed by the factor `1 + c` in the direction which the reward asks for,
a further change in this direction has no effect: two instances with the same reward have the same
loss if their log-probabilities differ only where both are beyond the range. -/
theorem clipped_beyond {f : Fns K} (hf : ExpLaws f) (importance earlyReduce : Bool) (c : K)
    (hc : 0 ≤ c) (x y : Instance K) (reference : List K) (hr : x.reward = y.reward)
    (hl : (gradientReference earlyReduce x).length = (gradientReference earlyReduce y).length)
    (h : ∀ (i : Nat) (l l' r : K), (gradientReference earlyReduce x)[i]? = some l →
      (gradientReference earlyReduce y)[i]? = some l' → reference[i]? = some r →
      l = l' ∨ (Beyond f c l r x.reward ∧ Beyond f c l' r x.reward)) :
    gradientLoss f importance (some c) earlyReduce x reference =
      gradientLoss f importance (some c) earlyReduce y reference := by
  have key : ∀ (i : Nat) (l l' r : K), (gradientReference earlyReduce x)[i]? = some l →
      (gradientReference earlyReduce y)[i]? = some l' → reference[i]? = some r →
      gradientTerm f importance (some c) l r x.reward =
        gradientTerm f importance (some c) l' r x.reward := by
    intro i l l' r h1 h2 h3
    rcases h i l l' r h1 h2 h3 with rfl | ⟨ha, hb⟩
    · rfl
    · exact term_beyond hf importance c hc l l' r x.reward ha hb
  unfold gradientLoss
  dsimp only
  rw [hl, ← hr]
  split
  · congr 1
    apply le_antisymm
    · exact zipWith_rel _ _ _ _ hl fun i l l' r h1 h2 h3 => le_of_eq (key i l l' r h1 h2 h3)
    · exact zipWith_rel _ _ _ _ hl.symm fun i l' l r h1 h2 h3 =>
        le_of_eq (key i l l' r h2 h1 h3).symm
  · rfl

example : gradientLoss hyperFns true (some (1/2)) true (gradient [-1] 4) [-3] =
    gradientLoss hyperFns true (some (1/2)) true (gradient [-2] 4) [-3] := by
  apply clipped_beyond hyper_laws true true (1/2) (by norm_num) (gradient [-1] 4) (gradient [-2] 4) [-3]
    rfl rfl
  intro i l l' r h1 h2 h3
  cases i with
  | succ i => simp at h3
  | zero =>
    have e1 : l = -1 := by
      have := Option.some.inj h1
      rw [← this]; decide +kernel
    have e2 : l' = -2 := by
      have := Option.some.inj h2
      rw [← this]; decide +kernel
    have e3 : r = -3 := (Option.some.inj h3).symm
    subst e1 e2 e3
    exact Or.inr ⟨Or.inl (by decide +kernel), Or.inl (by decide +kernel)⟩

example : (gradientLoss hyperFns false (some (1/2)) true (gradient [-1] 4) [-3]).toOption =
      some 10 ∧
    (gradientLoss hyperFns false (some (1/2)) true (gradient [-2] 4) [-3]).toOption =
      some 10 ∧
    (gradientLoss hyperFns false (some (1/2)) true (gradient [-3] 4) [-3]).toOption =
      some 12 := by decide +kernel

/-- If an action with a positive reward becomes more probable, the loss does not increase. -/
theorem gradient_antitone {f : Fns K} (hf : ExpLaws f) (importance earlyReduce : Bool)
    (clipping : Option K) (x y : Instance K) (reference : List K) (hr : x.reward = y.reward)
    (h0 : 0 ≤ x.reward)
    (hl : (gradientReference earlyReduce x).length = (gradientReference earlyReduce y).length)
    (h : ∀ (i : Nat) (l l' : K), (gradientReference earlyReduce x)[i]? = some l →
      (gradientReference earlyReduce y)[i]? = some l' → l ≤ l') (a b : K)
    (ha : gradientLoss f importance clipping earlyReduce x reference = .ok a)
    (hb : gradientLoss f importance clipping earlyReduce y reference = .ok b) : b ≤ a := by
  unfold gradientLoss at ha hb
  dsimp only at ha hb
  rw [hl] at ha
  rw [← hr] at hb
  split at ha
  · rename_i he
    rw [if_pos he] at hb
    rw [← Except.ok.inj ha, ← Except.ok.inj hb]
    exact zipWith_rel _ _ _ _ hl.symm fun i l' l r h1 h2 _ =>
      term_antitone hf importance clipping r x.reward (h i l l' h2 h1) h0
  · exact absurd ha (by simp)

example : (gradientLoss hyperFns true (some (1/2)) false (gradient [-3, -5/2] 4) [-3, -3]).toOption =
      some (-10) ∧
    (gradientLoss hyperFns true (some (1/2)) false (gradient [-7/2, -5/2] 4) [-3, -3]).toOption =
      some (-26/3) := by decide +kernel

/-- If an action with a negative reward becomes more probable, the loss does not decrease. -/
theorem gradient_monotone {f : Fns K} (hf : ExpLaws f) (importance earlyReduce : Bool)
    (clipping : Option K) (x y : Instance K) (reference : List K) (hr : x.reward = y.reward)
    (h0 : x.reward ≤ 0)
    (hl : (gradientReference earlyReduce x).length = (gradientReference earlyReduce y).length)
    (h : ∀ (i : Nat) (l l' : K), (gradientReference earlyReduce x)[i]? = some l →
      (gradientReference earlyReduce y)[i]? = some l' → l ≤ l') (a b : K)
    (ha : gradientLoss f importance clipping earlyReduce x reference = .ok a)
    (hb : gradientLoss f importance clipping earlyReduce y reference = .ok b) : a ≤ b := by
  unfold gradientLoss at ha hb
  dsimp only at ha hb
  rw [hl] at ha
  rw [← hr] at hb
  split at ha
  · rename_i he
    rw [if_pos he] at hb
    rw [← Except.ok.inj ha, ← Except.ok.inj hb]
    exact zipWith_rel _ _ _ _ hl fun i l l' r h1 h2 _ =>
      term_monotone hf importance clipping r x.reward (h i l l' h1 h2) h0
  · exact absurd ha (by simp)

example : (gradientLoss hyperFns true (some (1/2)) false (gradient [-3, -5/2] (-4)) [-3, -3]).toOption =
      some 10 ∧
    (gradientLoss hyperFns true (some (1/2)) false (gradient [-4, -5/2] (-4)) [-3, -3]).toOption =
      some (26/3) := by decide +kernel

/-- At the reference, that is before the first step of an update, the derivative of the loss with
respect to the log-probability is minus the reward, with and without importance sampling, and with
every positive clipping value. -/
theorem gradient_at_reference (importance : Bool) (clipping : Option ℝ)
    (hc : ∀ c, clipping = some c → 0 < c) (reference reward : ℝ) :
    HasDerivAt (fun l => gradientTerm realFns importance clipping l reference reward) (-reward)
      reference := by
  have heps : (0 : ℝ) < -Real.log eps := by
    have := Real.log_neg (eps_pos (K := ℝ)) (by linarith [eps_lt (K := ℝ)])
    linarith
  -- without clipping
  have hnone : HasDerivAt
      (fun l => -((if importance then Real.exp (l - reference) else l) * reward)) (-reward)
      reference := by
    cases importance with
    | false =>
      have := ((hasDerivAt_id reference).mul_const reward).fun_neg
      simpa using this
    | true =>
      have h1 : HasDerivAt (fun l : ℝ => l - reference) 1 reference := by
        simpa using (hasDerivAt_id reference).sub_const reference
      have := (h1.exp.mul_const reward).fun_neg
      simpa using this
  apply hnone.congr_of_eventuallyEq
  -- the radius of the neighbourhood
  obtain ⟨d, hd, hde, hdc⟩ : ∃ d : ℝ, 0 < d ∧ d ≤ -Real.log eps ∧
      ∀ c, clipping = some c → d ≤ Real.log (1 + c) := by
    cases clipping with
    | none => exact ⟨_, heps, le_refl _, fun c e => absurd e (by simp)⟩
    | some c =>
      have h0 := hc c rfl
      have hlog : 0 < Real.log (1 + c) := Real.log_pos (by linarith)
      exact ⟨min (-Real.log eps) (Real.log (1 + c)), lt_min heps hlog, min_le_left _ _,
        fun c' e => by cases e; exact min_le_right _ _⟩
  have hball : ∀ᶠ l in nhds reference, |l - reference| < d := by
    have := Metric.ball_mem_nhds reference hd
    filter_upwards [this] with l hl
    rwa [Metric.mem_ball, Real.dist_eq] at hl
  filter_upwards [hball] with l hl
  have hl' := abs_lt.1 hl
  have ht : gradientTarget realFns importance l reference =
      if importance then Real.exp (l - reference) else l := by
    unfold gradientTarget
    cases importance with
    | false => rfl
    | true =>
      rw [if_pos rfl, if_pos rfl]
      show Real.exp (clip (l - reference) (Real.log eps) (-Real.log eps)) = _
      rw [clip_eq_self (by linarith) (by linarith)]
  cases clipping with
  | none =>
    show -(gradientTarget realFns importance l reference * reward) = _
    rw [ht]
  | some c =>
    have h0 := hc c rfl
    have h1 : (0 : ℝ) < 1 + c := by linarith
    have hdc' := hdc c rfl
    unfold gradientTerm
    dsimp only
    rw [ht]
    cases importance with
    | false =>
      simp only [Bool.false_eq_true, if_false]
      show -(min (l * reward)
        (clip l (reference - Real.log (1 + c)) (reference + Real.log (1 + c)) * reward)) = _
      rw [clip_eq_self (by linarith) (by linarith), min_self]
    | true =>
      simp only [if_true]
      have h2 : Real.exp (l - reference) ≤ 1 + c := by
        rw [← Real.le_log_iff_exp_le h1]
        linarith
      have h3 : 1 / (1 + c) ≤ Real.exp (l - reference) := by
        rw [one_div, ← Real.exp_log h1, ← Real.exp_neg]
        exact Real.exp_le_exp.2 (by linarith)
      rw [clip_eq_self h3 h2, min_self]

example : HasDerivAt (fun l => gradientTerm realFns true (some (1/5)) l (-3) 7) (-7) (-3) :=
  gradient_at_reference true (some (1/5)) (fun c e => by cases e; norm_num) (-3) 7

/-- With importance sampling and without clipping, the loss of an instance is minus the reward times
the ratio of the joint probabilities of all action components now and before.  The ratio is limited
to the range from `1e-6` to `1e6`, as the code says for numerical stability. -/
theorem ratio_loss (now before : List ℝ) (hn : ∀ p ∈ now, 0 < p) (hb : ∀ p ∈ before, 0 < p)
    (h1 : eps * before.prod ≤ now.prod) (h2 : now.prod ≤ before.prod / eps)
    (sv av dv reward : ℝ) (shape : List Nat) :
    gradientLoss realFns true none true
      ⟨[⟨shape, now.map Real.log, [], []⟩], sv, av, dv, reward⟩
      (gradientReference true
        (⟨[⟨shape, before.map Real.log, [], []⟩], sv, av, dv, reward⟩ : Instance ℝ)) =
      .ok (-(now.prod / before.prod * reward)) := by
  have hsum : ∀ ps : List ℝ, (∀ p ∈ ps, 0 < p) → 0 < ps.prod ∧
      (ps.map Real.log).sum = Real.log ps.prod := by
    intro ps
    induction ps with
    | nil => intro _; simp
    | cons p ps ih =>
      intro h
      have hp := h p (by simp)
      obtain ⟨i1, i2⟩ := ih fun q hq => h q (by simp [hq])
      refine ⟨by rw [List.prod_cons]; positivity, ?_⟩
      rw [List.map_cons, List.sum_cons, List.prod_cons, i2,
        Real.log_mul (ne_of_gt hp) (ne_of_gt i1)]
  obtain ⟨pn, en⟩ := hsum now hn
  obtain ⟨pb, eb⟩ := hsum before hb
  have he : (0 : ℝ) < eps := eps_pos
  have hratio : 0 < now.prod / before.prod := by positivity
  have hlog : Real.log now.prod - Real.log before.prod = Real.log (now.prod / before.prod) :=
    (Real.log_div (ne_of_gt pn) (ne_of_gt pb)).symm
  have lo : Real.log eps ≤ Real.log (now.prod / before.prod) := by
    apply Real.log_le_log he
    rw [le_div_iff₀ pb]
    exact h1
  have hi : Real.log (now.prod / before.prod) ≤ -Real.log eps := by
    rw [← Real.log_inv]
    apply Real.log_le_log hratio
    rw [div_le_iff₀ pb, inv_mul_eq_div]
    exact h2
  have ln : logProbability
      (⟨[⟨shape, now.map Real.log, [], []⟩], sv, av, dv, reward⟩ : Instance ℝ) =
      Real.log now.prod := by
    simp [logProbability, logProbabilities, en]
  have lb : logProbability
      (⟨[⟨shape, before.map Real.log, [], []⟩], sv, av, dv, reward⟩ : Instance ℝ) =
      Real.log before.prod := by
    simp [logProbability, logProbabilities, eb]
  simp only [gradientLoss, gradientReference, if_true, ln, lb, List.length_singleton,
    List.zipWith_cons_cons, List.zipWith_nil_left, List.sum_singleton]
  show Except.ok (-(Real.exp (clip (Real.log now.prod - Real.log before.prod) (Real.log eps)
    (-Real.log eps)) * reward)) = _
  rw [hlog, clip_eq_self lo hi, Real.exp_log hratio]

example : gradientLoss realFns true none true
      ⟨[⟨[2], ([1/2, 1/3] : List ℝ).map Real.log, [], []⟩], 0, 0, 0, 5⟩
      (gradientReference true
        (⟨[⟨[2], ([1/4, 1/2] : List ℝ).map Real.log, [], []⟩], 0, 0, 0, 5⟩ : Instance ℝ)) =
      .ok (-(([1/2, 1/3] : List ℝ).prod / ([1/4, 1/2] : List ℝ).prod * 5)) :=
  ratio_loss _ _ (by simp) (by simp) (by simp [eps]; norm_num) (by simp [eps]; norm_num) 0 0 0 5 [2]

/-! ## C63 -/

/-- The reference of a sum of objectives has the size which is declared for it. -/
theorem plus_reference_size (o : Objective K) (x : Instance K) (h : x.Shaped) :
    (o.reference x).length = o.size (x.actions.map (·.shape)) := by
  induction o with
  | leaf l => exact leaf_reference_length l x h
  | plus a b iha ihb =>
    show (a.reference x ++ b.reference x).length = _
    rw [List.length_append, iha, ihb]
    rfl

/-- The loss of a sum of objectives is the sum of the losses of the single objectives, each with the
reference which it computed itself, however the sums are nested. -/
theorem plus_loss (f : Fns K) (o : Objective K) (before now : Instance K) (h : before.Shaped)
    (hs : before.actions.map (·.shape) = now.actions.map (·.shape)) :
    o.loss f now (o.reference before) = sumOfLosses f before now o.leaves := by
  induction o with
  | leaf l =>
    show l.loss f now (l.reference before) = sumOfLosses f before now [l]
    simp only [sumOfLosses]
    cases l.loss f now (l.reference before) <;> simp
  | plus a b iha ihb =>
    have ha := plus_reference_size a before h
    have hb := plus_reference_size b before h
    rw [hs] at ha hb
    show _ = sumOfLosses f before now (a.leaves ++ b.leaves)
    rw [sumOfLosses_append, ← iha, ← ihb]
    have e : (Objective.plus a b).reference before = a.reference before ++ b.reference before := rfl
    have hl : (a.reference before ++ b.reference before).length =
        a.size (now.actions.map (·.shape)) + b.size (now.actions.map (·.shape)) := by
      rw [List.length_append, ha, hb]
    rw [e, loss_plus f a b now _ hl, ← ha, List.take_left, List.drop_left]

/-- A nested sum for examples. -/
def nested : Objective ℚ :=
  .plus (.plus (.leaf (.value .state none true)) (.leaf (.policyGradient true none false)))
    (.plus (.leaf (.policyGradient false none true)) (.leaf .detPolicyGradient))

example : vectors.Shaped := by
  intro a ha
  have : a = ⟨[2], [-1, -2], [1, 3], [1, 4]⟩ ∨ a = ⟨[1], [-1/2], [2], [5]⟩ := by
    simpa [vectors] using ha
  rcases this with rfl | rfl <;> decide

example : (nested.loss hyperFns vectors (nested.reference vectors)).toOption =
    some (0 - 6 + 7 - 4) := by decide +kernel

end Verif.Props.Objective
