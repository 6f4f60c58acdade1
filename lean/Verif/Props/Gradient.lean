import Verif.Grad.Lemmas

/-!
# C129: clipping of gradients and of updates
-/

namespace Verif.Props.Gradient

open Verif.Grad

variable {K : Type} [Field K] [LinearOrder K] [IsStrictOrderedRing K] {ι : Type}

/-- Gradients are applied, to their own variable, if there is at least one; otherwise an AssertionError is raised. -/
theorem assertion (root : K → K) (clip : Option K) (gs : List (Option (List K))) (vs : List ι) (h : gs.length = vs.length) :
    gradients root clip gs vs = .error .assertion ↔ ∀ g ∈ gs, g = none := by
  unfold gradients
  dsimp only
  rw [← paired_nil_iff h]
  by_cases hp : paired gs vs = []
  · rw [if_pos hp]
    exact ⟨fun _ => hp, fun _ => rfl⟩
  · rw [if_neg hp]
    refine ⟨fun hh => ?_, fun hh => absurd hh hp⟩
    cases clip with
    | none => cases hh
    | some c =>
      dsimp only at hh
      split at hh <;> cases hh

example : gradients (fun x : ℚ => x) none [none, none] ["v", "w"] = .error .assertion := by rfl

/-- Without clipping each gradient is applied unchanged. -/
theorem unclipped (root : K → K) (gs : List (Option (List K))) (vs : List ι) (h : gs.length = vs.length) (hg : ∃ g, some g ∈ gs) :
    ∃ l, gradients root none gs vs = .ok l ∧ Applied 1 gs vs l := by
  refine ⟨paired gs vs, ?_, applied_paired h⟩
  unfold gradients
  dsimp only
  rw [if_neg]
  obtain ⟨g, hg⟩ := hg
  exact fun hp => nomatch (paired_nil_iff h).1 hp _ hg

example : gradients (fun x : ℚ => x) none [none, some [1, 2]] ["v", "w"] = .ok [([1, 2], "w")] := by rfl

/-- With clipping all gradients are applied, each to its own variable, times the same factor, so that their global norm is at most the threshold. -/
theorem clipped (root : K → K) (c : K) (hc : 0 ≤ c) (gs : List (Option (List K))) (vs : List ι) (h : gs.length = vs.length)
    (hr : IsRoot (gradSq gs) (root (gradSq gs))) {l : List (List K × ι)} (hl : gradients root (some c) gs vs = .ok l) :
    ∃ s, Factor (gradSq gs) c s ∧ Applied s gs vs l := by
  unfold gradients at hl
  dsimp only at hl
  split at hl
  · cases hl
  · cases hm : clipGlobal root c ((paired gs vs).map (·.1)) with
    | none =>
      rw [hm] at hl
      cases hl
    | some m =>
      rw [hm] at hl
      obtain ⟨s, hs, hms⟩ := clipGlobal_inv hm
      rw [← gradSq_eq h] at hs
      refine ⟨s, factor_of hr hc hs, ?_⟩
      rw [← Except.ok.inj hl, hms]
      exact applied_zip s h

/-- Clipping with a positive threshold succeeds. -/
theorem clipped_accepted (root : K → K) (c : K) (hc : 0 < c) (gs : List (Option (List K))) (vs : List ι) (h : gs.length = vs.length)
    (hg : ∃ g, some g ∈ gs) : ∃ l, gradients root (some c) gs vs = .ok l := by
  unfold gradients
  dsimp only
  rw [if_neg]
  · obtain ⟨m, hm⟩ := clipGlobal_some root hc ((paired gs vs).map (·.1))
    rw [hm]
    exact ⟨_, rfl⟩
  · obtain ⟨g, hg⟩ := hg
    exact fun hp => nomatch (paired_nil_iff h).1 hp _ hg

/-- Gradients 3 and 4 have norm 5. -/
example : gradients (fun x : ℚ => if x = 25 then 5 else 0) (some 1) [some [3], none, some [4]] ["u", "v", "w"] =
    .ok [([3 / 5], "u"), ([4 / 5], "w")] := by decide +kernel

/-- A threshold 0, which is accepted, makes gradients 0 invalid. -/
theorem zero_violation (root : K → K) (gs : List (Option (List K))) (vs : List ι) (h : gs.length = vs.length) (hg : ∃ g, some g ∈ gs)
    (hr : root (gradSq gs) = 0) : gradients root (some 0) gs vs = .error .nan := by
  unfold gradients
  dsimp only
  rw [if_neg]
  · unfold clipGlobal
    rw [squaresAll_eq, ← gradSq_eq h, hr]
    unfold globalFactor
    rw [if_pos rfl, if_pos rfl]
  · obtain ⟨g, hg⟩ := hg
    exact fun hp => nomatch (paired_nil_iff h).1 hp _ hg

example : gradients (fun x : ℚ => x) (some 0) [some [0]] ["v"] = .error .nan := by decide +kernel

/-- Other gradients are accepted with threshold 0, which makes them 0. -/
theorem zero_accepted (root : K → K) (gs : List (Option (List K))) (vs : List ι) (h : gs.length = vs.length) (hg : ∃ g, some g ∈ gs)
    (hr : root (gradSq gs) ≠ 0) : ∃ l, gradients root (some 0) gs vs = .ok l ∧ Applied 0 gs vs l := by
  refine ⟨(scaleAll 0 ((paired gs vs).map (·.1))).zip ((paired gs vs).map (·.2)), ?_, applied_zip 0 h⟩
  unfold gradients
  dsimp only
  rw [if_neg]
  · unfold clipGlobal
    rw [squaresAll_eq, ← gradSq_eq h]
    unfold globalFactor
    rw [if_neg hr, if_pos rfl, zero_mul]
  · obtain ⟨g, hg⟩ := hg
    exact fun hp => nomatch (paired_nil_iff h).1 hp _ hg

example : gradients (fun x : ℚ => x) (some 0) [some [2]] ["v"] = .ok [([0], "v")] := by decide +kernel

/-- A step clipped by global norm: all deltas times the same factor, with global norm at most the threshold; the variables are changed by the
deltas returned. -/
theorem global_step (root : K → K) (t : K) (ht : 0 ≤ t) (before vars deltas : List (List K)) (hv : SumAll before deltas vars)
    (hr : IsRoot (globalSq deltas) (root (globalSq deltas))) {after out : List (List K)}
    (h : clippingStep root .globalNorm t vars deltas = some (after, out)) :
    ∃ s, Factor (globalSq deltas) t s ∧ EachRel (Scaled s) deltas out ∧ SumAll before out after := by
  obtain ⟨hd, ha⟩ := clippingStep_inv h
  obtain ⟨s, hs, hms⟩ := clipGlobal_inv hd
  have he : EachRel (Scaled s) deltas out := by
    rw [hms]
    exact each_scaled s deltas
  refine ⟨s, factor_of hr ht hs, he, ?_⟩
  rw [ha]
  exact correct_all hv (each_mono he fun _ _ _ h => scaled_length h)

/-- A step clipped by norm: each delta times its own factor, with norm at most the threshold. -/
theorem norm_step (root : K → K) (t : K) (ht : 0 ≤ t) (before vars deltas : List (List K)) (hv : SumAll before deltas vars)
    (hr : ∀ d ∈ deltas, IsRoot (normSq d) (root (normSq d))) {after out : List (List K)}
    (h : clippingStep root .norm t vars deltas = some (after, out)) :
    EachRel (fun d o => ∃ s, Factor (normSq d) t s ∧ Scaled s d o) deltas out ∧ SumAll before out after := by
  obtain ⟨hd, ha⟩ := clippingStep_inv h
  have he : EachRel (fun d o => ∃ s, Factor (normSq d) t s ∧ Scaled s d o) deltas out :=
    each_mono (collect_each hd) fun d o hdm hdo => clipNorm_factor (hr d hdm) ht hdo
  refine ⟨he, ?_⟩
  rw [ha]
  refine correct_all hv (each_mono he fun _ _ _ h => ?_)
  obtain ⟨s, _, h⟩ := h
  exact scaled_length h

/-- A step clipped by value: each entry of each delta is moved to the nearest value between the negative threshold and the threshold. -/
theorem value_step (root : K → K) (t : K) (ht : 0 ≤ t) (before vars deltas : List (List K)) (hv : SumAll before deltas vars)
    {after out : List (List K)} (h : clippingStep root .value t vars deltas = some (after, out)) :
    EachRel (EachRel (Nearest t)) deltas out ∧ SumAll before out after := by
  obtain ⟨hd, ha⟩ := clippingStep_inv h
  have he : EachRel (EachRel (Nearest t)) deltas out := by
    rw [← Option.some.inj hd]
    exact each_map _ _ (clipValue_nearest ht)
  refine ⟨he, ?_⟩
  rw [ha]
  exact correct_all hv (each_mono he fun _ _ _ h => each_length h)

/-- A positive threshold is fine in every mode. -/
theorem step_accepted (root : K → K) (mode : Mode) (t : K) (ht : 0 < t) (vars deltas : List (List K)) :
    ∃ after out, clippingStep root mode t vars deltas = some (after, out) := by
  have : ∃ m, clipDeltas root mode t deltas = some m := by
    cases mode with
    | globalNorm => exact clipGlobal_some root ht deltas
    | norm => exact collect_some fun d _ => clipNorm_some d ht
    | value => exact ⟨_, rfl⟩
  obtain ⟨m, hm⟩ := this
  unfold clippingStep
  rw [hm]
  exact ⟨_, _, rfl⟩

example : clippingStep (fun x : ℚ => x) .value 1 [[5], [0]] [[3], [-2]] = some ([[3], [1]], [[1], [-1]]) := by decide +kernel
example : clippingStep (fun x : ℚ => if x = 25 then 5 else 0) .norm 1 [[3, 4], [0]] [[3, 4], [0]] =
    some ([[3 / 5, 4 / 5], [0]], [[3 / 5, 4 / 5], [0]]) := by decide +kernel
example : SumAll [[(2 : ℚ)]] [[3]] [[2 + 3]] := .cons (.cons .nil) .nil

/-- With threshold 0, which is accepted, steps are invalid as soon as nothing is changed. -/
theorem step_zero_violation (root : K → K) (h0 : root 0 = 0) (vars : List (List K)) :
    clippingStep root .globalNorm 0 vars [[0]] = none ∧ clippingStep root .norm 0 vars [[0]] = none := by
  have hs : squares [(0 : K)] = 0 := by
    unfold squares squares
    ring
  constructor
  · unfold clippingStep clipDeltas clipGlobal squaresAll squaresAll
    dsimp only
    rw [hs, add_zero, h0]
    unfold globalFactor
    rw [if_pos rfl, if_pos rfl]
  · unfold clippingStep clipDeltas
    have : clipNorm root 0 [(0 : K)] = none := by
      unfold clipNorm
      dsimp only
      rw [hs, if_neg (lt_irrefl _), max_self, if_pos rfl]
    dsimp only
    rw [List.map_singleton, this]
    rfl

/-- Steps which change something are accepted with threshold 0. -/
theorem step_zero_accepted (root : K → K) (vars deltas : List (List K)) :
    (root (globalSq deltas) ≠ 0 → ∃ after out, clippingStep root .globalNorm 0 vars deltas = some (after, out)) ∧
    ((∀ d ∈ deltas, 0 < normSq d ∧ 0 < root (normSq d)) → ∃ after out, clippingStep root .norm 0 vars deltas = some (after, out)) ∧
    ∃ after out, clippingStep root .value 0 vars deltas = some (after, out) := by
  have key : ∀ mode, (∃ m, clipDeltas root mode 0 deltas = some m) → ∃ after out, clippingStep root mode 0 vars deltas = some (after, out) := by
    intro mode ⟨m, hm⟩
    unfold clippingStep
    rw [hm]
    exact ⟨_, _, rfl⟩
  refine ⟨fun hr => key _ ?_, fun hr => key _ (collect_some fun d hd => ?_), key _ ⟨_, rfl⟩⟩
  · refine ⟨scaleAll (0 * (1 / root (globalSq deltas))) deltas, ?_⟩
    unfold clipDeltas clipGlobal
    dsimp only
    rw [squaresAll_eq]
    unfold globalFactor
    rw [if_neg hr, if_pos rfl]
  · obtain ⟨h1, h2⟩ := hr d hd
    unfold clipNorm
    dsimp only
    rw [squares_eq, if_pos h1, if_neg (ne_of_gt (lt_of_lt_of_le h2 (le_max_left _ _)))]
    exact ⟨_, rfl⟩

example : clippingStep (fun x : ℚ => x) .norm 0 [[5]] [[1]] = some ([[4]], [[0]]) := by decide +kernel

/-- Gradients are documented to be clipped at 1 by default, but then are not clipped at all. -/
theorem default_violation : ∃ gs : List (Option (List ℚ)), ∀ root : ℚ → ℚ, gradients root none gs ["v"] = .ok [([5], "v")] :=
  ⟨[some [5]], fun _ => rfl⟩

end Verif.Props.Gradient
