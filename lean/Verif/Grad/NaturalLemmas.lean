import Verif.Grad.Lemmas

/-!
# Lemmas about the natural gradient step
-/

namespace Verif.Grad

variable {K : Type} [Field K] [LinearOrder K]

theorem dot_eq (a b : List K) : dot a b = inner a b := by
  induction a generalizing b with
  | nil => rfl
  | cons x a ih =>
    cases b with
    | nil => rfl
    | cons y b =>
      show x * y + dot a b = inner (x :: a) (y :: b)
      rw [ih]
      unfold inner
      rw [List.zip_cons_cons, List.map_cons, List.sum_cons]

theorem inner_cons (x y : K) (a b : List K) : inner (x :: a) (y :: b) = x * y + inner a b := by
  unfold inner
  rw [List.zip_cons_cons, List.map_cons, List.sum_cons]

theorem inner_nil_left (b : List K) : inner [] b = 0 := rfl

theorem inner_nil_right (a : List K) : inner a [] = 0 := by
  unfold inner
  rw [List.zip_nil_right]
  rfl

theorem inner_scaled {s s' : K} {a b c d : List K} (h : Scaled s a b) (h' : Scaled s' c d) : inner b d = s * s' * inner a c := by
  induction h generalizing c d with
  | nil => rw [inner_nil_left, inner_nil_left, mul_zero]
  | cons h ih =>
    cases h' with
    | nil => rw [inner_nil_right, inner_nil_right, mul_zero]
    | cons h' =>
      rw [inner_cons, inner_cons, ih h']
      ring

theorem curvature_eq (fisher : List K → List K) (delta : List K) : curvature fisher delta = divergence fisher delta := by
  unfold curvature divergence
  rw [dot_eq]
  ring

theorem divergence_scaled {fisher : List K → List K} (hf : Homogeneous fisher) {s : K} {a b : List K} (h : Scaled s a b) :
    divergence fisher b = s ^ 2 * divergence fisher a := by
  unfold divergence
  rw [inner_scaled (hf.scaled _ _ _ h) h]
  ring

theorem scaled_div (m : K) (a : List K) : Scaled (1 / m) a (a.map (fun x => x / m)) := by
  have := scaled_map (1 / m) a
  rwa [show (fun x : K => x * (1 / m)) = fun x => x / m from funext fun x => by ring] at this

theorem scaled_zero (a : List K) : Scaled 0 a (a.map (fun _ => (0 : K))) := by
  have := scaled_map (0 : K) a
  rwa [show (fun x : K => x * 0) = fun _ => (0 : K) from funext mul_zero] at this

theorem sum_zero (vars a : List K) (h : a.length = vars.length) : Sum vars (a.map (fun _ => (0 : K))) vars := by
  induction vars generalizing a with
  | nil =>
    cases a with
    | nil => exact .nil
    | cons x a => cases h
  | cons v vars ih =>
    cases a with
    | nil => cases h
    | cons x a =>
      have := Sum.cons (x := v) (y := 0) (ih a (Nat.succ.inj h))
      rwa [add_zero] at this

theorem sum_zip (vars a : List K) (h : a.length = vars.length) : Sum vars a (List.zipWith (fun x y => x + y) vars a) := by
  induction vars generalizing a with
  | nil =>
    cases a with
    | nil => exact .nil
    | cons x a => cases h
  | cons v vars ih =>
    cases a with
    | nil => cases h
    | cons x a => exact .cons (ih a (Nat.succ.inj h))

theorem inner_solves {damping : K} {f x g : List K} (h : Solves damping f x g) :
    inner g x = -(inner f x) - damping * inner x x := by
  induction h with
  | nil =>
    rw [inner_nil_left]
    ring
  | @cons f x g fs xs gs hx _ ih =>
    rw [inner_cons, inner_cons, inner_cons, ih]
    have : g = -(f + damping * x) := by rw [hx, neg_neg]
    rw [this]
    ring

variable [IsStrictOrderedRing K]

theorem inner_self_nonneg (a : List K) : 0 ≤ inner a a := by
  induction a with
  | nil => exact le_refl _
  | cons x a ih =>
    rw [inner_cons]
    exact add_nonneg (mul_self_nonneg x) ih

theorem multiplier_pos {root : K → K} {rate eps c : K} (hr : 0 ≤ rate) (he : 0 < eps) (hc : 0 < c) (h : IsRoot c (root c)) :
    multiplier root rate eps c = root c / (rate + eps) + eps ∧ 0 < root c := by
  obtain ⟨h0, hm⟩ := h
  have hrp : 0 < root c := by
    refine lt_of_le_of_ne h0 fun heq => ?_
    rw [← heq, mul_zero] at hm
    exact absurd hm (ne_of_lt hc)
  refine ⟨?_, hrp⟩
  unfold multiplier
  dsimp only
  have : 0 < root c / (rate + eps) := div_pos hrp (by linarith)
  rw [if_pos hc, if_pos this]

theorem multiplier_nonpos {root : K → K} {rate eps c : K} (hr : 0 ≤ rate) (he : 0 < eps) (hc : c ≤ 0) (h : IsRoot (-c) (root (-c))) :
    multiplier root rate eps c = -(root (-c) / (rate + eps) + eps) ∧ 0 ≤ root (-c) := by
  refine ⟨?_, h.1⟩
  unfold multiplier
  dsimp only
  have h2 : 0 ≤ root (-c) / (rate + eps) := div_nonneg h.1 (by linarith)
  rw [if_neg (not_lt.2 hc), if_neg]
  · ring
  · rw [neg_div]
    linarith

end Verif.Grad
