import Verif.Policy.Lemmas
import Mathlib.Tactic.LinearCombination

/-! # Lemmas about the distributions of float actions -/

namespace Verif.Policy

variable {K : Type} [Field K] [LinearOrder K] [IsStrictOrderedRing K]

theorem bound_in_space {f : Fns K} (hf : Laws f) (given t : Option _) (lo hi : Option K)
    (hv : (Space.float lo hi).Valid) (ht : gaussianTransform given lo hi = .ok t) (x : K) :
    InSpace (.float lo hi) (.float (bound f t lo hi x)) := by
  have key : ∀ y : K, -1 ≤ y → y ≤ 1 → ∀ l h : K, l < h →
      l ≤ l + (h - l) * (1 / 2) * (y + 1) ∧ l + (h - l) * (1 / 2) * (y + 1) ≤ h := by
    intro y h1 h2 l h hlh
    have h3 : 0 ≤ (h - l) * (y + 1) := mul_nonneg (by linarith) (by linarith)
    have h4 : 0 ≤ (h - l) * (1 - y) := mul_nonneg (by linarith) (by linarith)
    constructor
    · linarith
    · linarith
  have hy : ∀ t : Transform, -1 ≤ (match t with
      | .tanh => f.tanh x
      | .clipping => clip x (-1) 1) ∧ (match t with
      | .tanh => f.tanh x
      | .clipping => clip x (-1) 1) ≤ 1 := by
    intro t
    cases t with
    | tanh => exact ⟨le_of_lt (hf.tanh_gt x), le_of_lt (hf.tanh_lt x)⟩
    | clipping =>
      exact ⟨le_min (le_max_right ..) (by linarith [one_pos (α := K)]), min_le_right ..⟩
  cases t with
  | none =>
    have : lo = none ∧ hi = none := by
      unfold gaussianTransform at ht
      cases lo <;> cases hi <;> cases given <;> simp at ht ⊢
      all_goals split at ht <;> simp at ht
    obtain ⟨rfl, rfl⟩ := this
    exact ⟨fun l h => by simp at h, fun l h => by simp at h⟩
  | some t =>
    cases lo with
    | none =>
      cases hi with
      | none => exact ⟨fun l h => by simp at h, fun l h => by simp at h⟩
      | some h =>
        refine ⟨fun l h => by simp at h, fun h' e => ?_⟩
        cases e
        exact min_le_left ..
    | some l =>
      cases hi with
      | none =>
        refine ⟨fun l' e => ?_, fun l h => by simp at h⟩
        cases e
        exact le_max_left ..
      | some h =>
        have := key _ (hy t).1 (hy t).2 l h (hv l h rfl rfl)
        refine ⟨fun l' e => ?_, fun h' e => ?_⟩
        · cases e
          exact this.1
        · cases e
          exact this.2

theorem beta_unit {f : Fns K} (hf : Laws f) (x y : K) :
    0 ≤ (betaParams f x y).beta / (betaParams f x y).alphaBeta ∧
      (betaParams f x y).beta / (betaParams f x y).alphaBeta ≤ 1 := by
  have ha : 1 ≤ (betaParams f x y).alpha := by
    show 1 ≤ f.exp _ + 1
    linarith [hf.exp_nonneg (clip x (f.log eps) (-f.log eps))]
  have hb : 1 ≤ (betaParams f x y).beta := by
    show 1 ≤ f.exp _ + 1
    linarith [hf.exp_nonneg (clip y (f.log eps) (-f.log eps))]
  have hs : (betaParams f x y).alphaBeta = (betaParams f x y).alpha + (betaParams f x y).beta := rfl
  rw [hs]
  constructor
  · exact div_nonneg (by linarith) (by linarith)
  · rw [div_le_one (by linarith)]
    linarith

theorem scaled_in_space {lo hi u : K} (h : lo < hi) (h0 : 0 ≤ u) (h1 : u ≤ 1) :
    InSpace (.float (some lo) (some hi)) (.float (lo + (hi - lo) * u)) := by
  have h3 : 0 ≤ (hi - lo) * u := mul_nonneg (by linarith) h0
  have h4 : 0 ≤ (hi - lo) * (1 - u) := mul_nonneg (by linarith) (by linarith)
  refine ⟨fun l e => ?_, fun l e => ?_⟩
  · cases e
    linarith
  · cases e
    linarith

/-- Two-sided rescaling and its inverse. -/
theorem unscale_scale {l h y : K} (hlh : l < h) :
    2 * (l + (h - l) * (1 / 2) * (y + 1) - l) / (h - l) - 1 = y := by
  have : h - l ≠ 0 := by
    intro e
    linarith
  field_simp
  ring

theorem scale_unscale {l h a : K} (hlh : l < h) :
    l + (h - l) * (1 / 2) * (2 * (a - l) / (h - l) - 1 + 1) = a := by
  have : h - l ≠ 0 := by
    intro e
    linarith
  field_simp
  ring

theorem clip_self {x lo hi : K} (h1 : lo ≤ x) (h2 : x ≤ hi) : clip x lo hi = x := by
  unfold clip
  rw [max_eq_left h1, min_eq_left h2]

theorem gaussian_stddev_pos {f : Fns K} (hf : Laws f) (lo hi : Option K) (x y : K) :
    0 < (gaussianParams f lo hi x y).stddev := by
  have := softplusScale_pos hf y
  simp only [gaussianParams]
  split
  · linarith
  · exact this

theorem transform_cases {given t : Option Transform} {lo hi : Option K}
    (hg : gaussianTransform given lo hi = .ok t) (hb : lo.isSome = hi.isSome) :
    (t = none ∧ lo = none ∧ hi = none) ∨
      ∃ t' l h, t = some t' ∧ lo = some l ∧ hi = some h := by
  cases lo with
  | none =>
    cases hi with
    | some h => exact absurd hb (by simp)
    | none =>
      left
      refine ⟨?_, rfl, rfl⟩
      unfold gaussianTransform at hg
      simpa using hg.symm
  | some l =>
    cases hi with
    | none => exact absurd hb (by simp)
    | some h =>
      right
      unfold gaussianTransform at hg
      simp at hg
      exact ⟨_, l, h, hg.symm, rfl, rfl⟩

theorem unscale_range {l h a : K} (hlh : l < h) (h1 : l ≤ a) (h2 : a ≤ h) :
    -1 ≤ 2 * (a - l) / (h - l) - 1 ∧ 2 * (a - l) / (h - l) - 1 ≤ 1 := by
  have hp : 0 < h - l := by linarith
  constructor
  · have : 0 ≤ 2 * (a - l) / (h - l) := div_nonneg (by linarith) (by linarith)
    linarith
  · have : 2 * (a - l) / (h - l) ≤ 2 := by
      rw [div_le_iff₀ hp]
      linarith
    linarith

theorem unscale_inside {l h a : K} (hlh : l < h) (h1 : l < a) (h2 : a < h) :
    -1 < 2 * (a - l) / (h - l) - 1 ∧ 2 * (a - l) / (h - l) - 1 < 1 := by
  have hp : 0 < h - l := by linarith
  constructor
  · have : 0 < 2 * (a - l) / (h - l) := div_pos (by linarith) hp
    linarith
  · have : 2 * (a - l) / (h - l) < 2 := by
      rw [div_lt_iff₀ hp]
      linarith
    linarith

theorem bound_reaches {f : Fns K} (hf : Laws f) (given t : Option Transform) (lo hi : Option K)
    (hs : (Space.float lo hi).Valid) (hg : gaussianTransform given lo hi = .ok t)
    (hb : lo.isSome = hi.isSome) (a : K) (h1 : ∀ l, lo = some l → l < a)
    (h2 : ∀ h, hi = some h → a < h) : ∃ y, bound f t lo hi y = a := by
  rcases transform_cases hg hb with ⟨rfl, rfl, rfl⟩ | ⟨t', l, h, rfl, rfl, rfl⟩
  · exact ⟨a, rfl⟩
  · have hlh := hs l h rfl rfl
    obtain ⟨h3, h4⟩ := unscale_inside hlh (h1 l rfl) (h2 h rfl)
    cases t' with
    | tanh =>
      refine ⟨f.atanh (2 * (a - l) / (h - l) - 1), ?_⟩
      simp only [bound, hf.tanh_atanh _ h3 h4]
      exact scale_unscale hlh
    | clipping =>
      refine ⟨2 * (a - l) / (h - l) - 1, ?_⟩
      simp only [bound, clip_self (le_of_lt h3) (le_of_lt h4)]
      exact scale_unscale hlh

theorem clip_near {y e : K} (h1 : -1 ≤ y) (h2 : y ≤ 1) (he : 0 ≤ e) (he' : e ≤ 1) :
    |clip y (-(1 - e)) (1 - e) - y| ≤ e ∧ -(1 - e) ≤ clip y (-(1 - e)) (1 - e) ∧
      clip y (-(1 - e)) (1 - e) ≤ 1 - e := by
  unfold clip
  rcases le_total y (-(1 - e)) with h | h
  · rw [max_eq_right h, min_eq_left (by linarith)]
    refine ⟨?_, le_refl _, by linarith⟩
    rw [abs_le]
    constructor <;> linarith
  · rw [max_eq_left h]
    rcases le_total y (1 - e) with h' | h'
    · rw [min_eq_left h']
      refine ⟨?_, h, h'⟩
      rw [sub_self, abs_zero]
      exact he
    · rw [min_eq_right h']
      refine ⟨?_, by linarith, le_refl _⟩
      rw [abs_le]
      constructor <;> linarith

theorem bound_unbound {f : Fns K} (hf : Laws f) (given t : Option Transform) (lo hi : Option K)
    (hs : (Space.float lo hi).Valid) (hg : gaussianTransform given lo hi = .ok t)
    (hb : lo.isSome = hi.isSome) (a : K) (h1 : ∀ l, lo = some l → l ≤ a)
    (h2 : ∀ h, hi = some h → a ≤ h) :
    (t ≠ some .tanh → bound f t lo hi (unbound f t lo hi a) = a) ∧
      ∀ l h, lo = some l → hi = some h →
        |bound f t lo hi (unbound f t lo hi a) - a| ≤ (h - l) * (eps / 2) := by
  rcases transform_cases hg hb with ⟨rfl, rfl, rfl⟩ | ⟨t', l, h, rfl, rfl, rfl⟩
  · exact ⟨fun _ => rfl, fun l h e => absurd e (by simp)⟩
  · have hlh := hs l h rfl rfl
    obtain ⟨h3, h4⟩ := unscale_range hlh (h1 l rfl) (h2 h rfl)
    have he := eps_pos (K := K)
    have he' := eps_lt (K := K)
    cases t' with
    | clipping =>
      have e : bound f (some .clipping) (some l) (some h)
          (unbound f (some .clipping) (some l) (some h) a) = a := by
        simp only [bound, unbound, clip_self h3 h4]
        exact scale_unscale hlh
      refine ⟨fun _ => e, ?_⟩
      intro l' h' e1 e2
      cases e1
      cases e2
      rw [e, sub_self, abs_zero]
      exact mul_nonneg (by linarith) (by linarith)
    | tanh =>
      refine ⟨fun h => absurd rfl h, ?_⟩
      intro l' h' e1 e2
      cases e1
      cases e2
      obtain ⟨h5, h6, h7⟩ := clip_near h3 h4 (le_of_lt he) (by linarith)
      simp only [bound, unbound]
      rw [hf.tanh_atanh _ (by linarith) (by linarith)]
      generalize clip (2 * (a - l) / (h - l) - 1) (-(1 - eps)) (1 - eps) = c at h5 h6 h7
      have e : l + (h - l) * (1 / 2) * (c + 1) - a =
          (h - l) * (1 / 2) * (c - (2 * (a - l) / (h - l) - 1)) := by
        have := scale_unscale (a := a) hlh
        linear_combination this
      rw [e, abs_mul, abs_of_pos (by linarith : 0 < (h - l) * (1 / 2))]
      have := mul_le_mul_of_nonneg_left h5 (by linarith : 0 ≤ (h - l) * (1 / 2))
      linarith

end Verif.Policy
