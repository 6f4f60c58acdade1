import Verif.Objective.Spec
import Verif.Policy.Real
import Verif.Policy.Lemmas
import Mathlib.Tactic.Linarith
import Mathlib.Tactic.Ring
import Mathlib.Tactic.Positivity

/-!
# Helper lemmas about objectives
-/

namespace Verif.Objective

open Verif.Policy

variable {K : Type} [Field K] [LinearOrder K] [IsStrictOrderedRing K]

theorem valueTerm_nonneg (huber : Option K) (hh : ∀ h, huber = some h → 0 ≤ h) (d : K) :
    0 ≤ valueTerm huber d := by
  cases huber with
  | none => unfold valueTerm; positivity
  | some h =>
    have h0 := hh h rfl
    unfold valueTerm
    dsimp only
    split
    · positivity
    · rename_i hd
      have hd' := not_le.1 hd
      apply mul_nonneg h0
      linarith

theorem valueTerm_zero_iff (huber : Option K) (hh : ∀ h, huber = some h → 0 < h) (d : K) :
    valueTerm huber d = 0 ↔ d = 0 := by
  cases huber with
  | none =>
    unfold valueTerm
    constructor
    · intro h
      have : d ^ 2 = 0 := by linarith
      exact pow_eq_zero_iff (two_ne_zero) |>.1 this
    · rintro rfl; simp
  | some h =>
    have h0 := hh h rfl
    unfold valueTerm
    dsimp only
    split
    · constructor
      · intro h
        have : d ^ 2 = 0 := by linarith
        exact pow_eq_zero_iff (two_ne_zero) |>.1 this
      · rintro rfl; simp
    · rename_i hd
      have hd' := not_le.1 hd
      constructor
      · intro e
        have : 0 < h * (|d| - 1 / 2 * h) := mul_pos h0 (by linarith)
        exact absurd e (ne_of_gt this)
      · rintro rfl
        simp at hd'
        exact absurd hd' (not_lt.2 h0.le)

/-- The loss lies above its tangents, by at most half of the squared distance. -/
theorem valueTerm_tangent (huber : Option K) (hh : ∀ h, huber = some h → 0 ≤ h) (d e : K) :
    0 ≤ valueTerm huber e - valueTerm huber d - slope huber d * (e - d) ∧
      valueTerm huber e - valueTerm huber d - slope huber d * (e - d) ≤ 1 / 2 * (e - d) ^ 2 := by
  cases huber with
  | none =>
    unfold valueTerm slope
    dsimp only
    constructor <;> nlinarith [sq_nonneg (e - d)]
  | some h =>
    have h0 := hh h rfl
    unfold valueTerm slope
    dsimp only
    have slope_in : |d| ≤ h → max (-h) (min h d) = d := by
      intro hd
      rw [min_eq_right (abs_le.1 hd).2, max_eq_right (abs_le.1 hd).1]
    split <;> rename_i he <;> split <;> rename_i hd
    · rw [slope_in hd]
      constructor <;> nlinarith [sq_nonneg (e - d)]
    · have hd' := not_le.1 hd
      have he1 := abs_le.1 he
      rcases le_total 0 d with hs | hs
      · rw [abs_of_nonneg hs] at hd' ⊢
        rw [min_eq_left hd'.le, max_eq_right (by linarith)]
        constructor
        · nlinarith [sq_nonneg (e - h)]
        · nlinarith [mul_nonneg (sub_nonneg.2 hd'.le) (sub_nonneg.2 he1.2), sq_nonneg (d - h)]
      · rw [abs_of_nonpos hs] at hd' ⊢
        rw [min_eq_right (by linarith), max_eq_left (by linarith)]
        constructor
        · nlinarith [sq_nonneg (e + h)]
        · nlinarith [mul_nonneg (sub_nonneg.2 hd'.le) (sub_nonneg.2 he1.1), sq_nonneg (d + h)]
    · rw [slope_in hd]
      have he' := not_le.1 he
      have hd1 := abs_le.1 hd
      rcases le_total 0 e with hs | hs
      · rw [abs_of_nonneg hs] at he' ⊢
        constructor
        · nlinarith [mul_nonneg (sub_nonneg.2 he'.le) (sub_nonneg.2 hd1.2), sq_nonneg (d - h)]
        · nlinarith [sq_nonneg (e - h)]
      · rw [abs_of_nonpos hs] at he' ⊢
        constructor
        · nlinarith [mul_nonneg (sub_nonneg.2 he'.le) (sub_nonneg.2 hd1.1), sq_nonneg (d + h)]
        · nlinarith [sq_nonneg (e + h)]
    · have he' := not_le.1 he
      have hd' := not_le.1 hd
      rcases le_total 0 d with hs | hs
      · rw [abs_of_nonneg hs] at hd' ⊢
        rw [min_eq_left hd'.le, max_eq_right (by linarith)]
        rcases le_total 0 e with ht | ht
        · rw [abs_of_nonneg ht] at he' ⊢
          constructor
          · nlinarith
          · nlinarith [sq_nonneg (e - d)]
        · rw [abs_of_nonpos ht] at he' ⊢
          constructor
          · nlinarith
          · nlinarith [sq_nonneg (e + d), mul_nonneg (sub_nonneg.2 he'.le) (sub_nonneg.2 hd'.le),
              sq_nonneg (e + h), sq_nonneg (d - h)]
      · rw [abs_of_nonpos hs] at hd' ⊢
        rw [min_eq_right (by linarith), max_eq_left (by linarith)]
        rcases le_total 0 e with ht | ht
        · rw [abs_of_nonneg ht] at he' ⊢
          constructor
          · nlinarith
          · nlinarith [sq_nonneg (e + d), mul_nonneg (sub_nonneg.2 he'.le) (sub_nonneg.2 hd'.le),
              sq_nonneg (e - h), sq_nonneg (d + h)]
        · rw [abs_of_nonpos ht] at he' ⊢
          constructor
          · nlinarith
          · nlinarith [sq_nonneg (e - d)]

theorem concatAxis1_ok : ∀ xs : List (List Nat × List K), (∀ p ∈ xs, p.1.length = 1) →
    concatAxis1 xs = .ok (xs.flatMap (·.2))
  | [], _ => rfl
  | (s, v) :: rest, h => by
    have h1 : s.length = 1 := h (s, v) (by simp)
    have ih := concatAxis1_ok rest fun p hp => h p (by simp [hp])
    unfold concatAxis1
    rw [if_pos h1, ih]
    simp

theorem sum_nonneg_zero (xs : List K) (h : ∀ x ∈ xs, 0 ≤ x) :
    0 ≤ xs.sum ∧ (xs.sum = 0 ↔ ∀ x ∈ xs, x = 0) := by
  induction xs with
  | nil => simp
  | cons x xs ih =>
    have hx := h x (by simp)
    obtain ⟨h1, h2⟩ := ih fun y hy => h y (by simp [hy])
    rw [List.sum_cons]
    refine ⟨by linarith, ?_⟩
    constructor
    · intro e y hy
      have e1 : x = 0 := by linarith
      have e2 : xs.sum = 0 := by linarith
      rcases List.mem_cons.1 hy with rfl | hy
      · exact e1
      · exact h2.1 e2 y hy
    · intro h
      rw [h x (by simp), h2.2 fun y hy => h y (by simp [hy])]
      simp

/-! ### Policy gradient -/

theorem real_exp_laws : ExpLaws realFns where
  exp_pos := Real.exp_pos
  exp_mono _ _ h := Real.exp_le_exp.2 h
  exp_neg x := by show Real.exp (-x) = 1 / Real.exp x; rw [Real.exp_neg, one_div]
  exp_log _ h := Real.exp_log h
  log_exp := Real.log_exp

section
variable {f : Fns K} (hf : ExpLaws f)
include hf

theorem exp_zero : f.exp 0 = 1 := by
  have h := hf.exp_neg 0
  have hp := hf.exp_pos 0
  rw [neg_zero, eq_div_iff (ne_of_gt hp)] at h
  nlinarith

theorem log_mono {x y : K} (hx : 0 < x) (h : x ≤ y) : f.log x ≤ f.log y := by
  by_contra hn
  have h1 := hf.exp_mono _ _ (le_of_lt (not_le.1 hn))
  rw [hf.exp_log _ hx, hf.exp_log _ (lt_of_lt_of_le hx h)] at h1
  have e : x = y := le_antisymm h h1
  rw [e] at hn
  exact hn (le_refl _)

theorem le_log_iff {x y : K} (hy : 0 < y) : f.exp x ≤ y ↔ x ≤ f.log y := by
  constructor
  · intro h
    have := log_mono hf (hf.exp_pos x) h
    rwa [hf.log_exp] at this
  · intro h
    have := hf.exp_mono _ _ h
    rwa [hf.exp_log _ hy] at this

theorem log_le_iff {x y : K} (hy : 0 < y) : y ≤ f.exp x ↔ f.log y ≤ x := by
  constructor
  · intro h
    have := log_mono hf hy h
    rwa [hf.log_exp] at this
  · intro h
    have := hf.exp_mono _ _ h
    rwa [hf.exp_log _ hy] at this

theorem log_inv {y : K} (hy : 0 < y) : f.log (1 / y) = -f.log y := by
  have h := hf.exp_neg (f.log y)
  rw [hf.exp_log _ hy] at h
  rw [← h, hf.log_exp]

theorem log_one : f.log 1 = 0 := by
  have := hf.log_exp 0
  rwa [exp_zero hf] at this

theorem log_eps_nonpos : f.log eps ≤ 0 := by
  have := log_mono hf eps_pos (show (eps : K) ≤ 1 by linarith [eps_lt (K := K)])
  rwa [log_one hf] at this

theorem log_factor_nonneg {c : K} (hc : 0 ≤ c) : 0 ≤ f.log (1 + c) := by
  have := log_mono hf one_pos (show (1 : K) ≤ 1 + c by linarith)
  rwa [log_one hf] at this

theorem near_iff {c l r : K} (hc : 0 ≤ c) :
    Near f c l r ↔ -f.log (1 + c) ≤ l - r ∧ l - r ≤ f.log (1 + c) := by
  have h1 : (0 : K) < 1 + c := by linarith
  unfold Near
  rw [le_log_iff hf h1, log_le_iff hf (by positivity), log_inv hf h1]
  exact and_comm

end

theorem clip_mono {x y lo hi : K} (h : x ≤ y) : clip x lo hi ≤ clip y lo hi :=
  min_le_min (max_le_max h (le_refl _)) (le_refl _)

theorem clip_eq_hi {x lo hi : K} (h : hi ≤ x) : clip x lo hi = hi := by
  unfold clip; exact min_eq_right (le_trans h (le_max_left _ _))

theorem clip_eq_lo {x lo hi : K} (h : x ≤ lo) (hl : lo ≤ hi) : clip x lo hi = lo := by
  unfold clip; rw [max_eq_right h, min_eq_left hl]

theorem clip_eq_self {x lo hi : K} (h1 : lo ≤ x) (h2 : x ≤ hi) : clip x lo hi = x := by
  unfold clip; rw [max_eq_left h1, min_eq_left h2]

/-- Clipping around zero keeps numbers in intervals around zero. -/
theorem clip_zero_in {x a b : K} (ha : 0 ≤ a) (hb : 0 ≤ b) (h1 : -b ≤ x) (h2 : x ≤ b) :
    -b ≤ clip x (-a) a ∧ clip x (-a) a ≤ b := by
  unfold clip
  constructor
  · apply le_min
    · exact le_trans h1 (le_max_left _ _)
    · linarith
  · exact le_trans (min_le_left _ _) (max_le h2 (by linarith))

theorem zipWith_le {α : Type} (g h : α → α → K) : ∀ xs ys : List α,
    (∀ p ∈ xs.zip ys, g p.1 p.2 ≤ h p.1 p.2) →
    (List.zipWith g xs ys).sum ≤ (List.zipWith h xs ys).sum
  | [], _, _ => by simp
  | _ :: _, [], _ => by simp
  | x :: xs, y :: ys, hp => by
    have h1 := hp (x, y) (by simp)
    have ih := zipWith_le g h xs ys fun p hp' => hp p (by simp [hp'])
    simp only [List.zipWith_cons_cons, List.sum_cons]
    exact add_le_add h1 ih

theorem zipWith_congr {α : Type} (g h : α → α → K) : ∀ xs ys : List α,
    (∀ p ∈ xs.zip ys, g p.1 p.2 = h p.1 p.2) →
    List.zipWith g xs ys = List.zipWith h xs ys
  | [], _, _ => by simp
  | _ :: _, [], _ => by simp
  | x :: xs, y :: ys, hp => by
    have h1 := hp (x, y) (by simp)
    have ih := zipWith_congr g h xs ys fun p hp' => hp p (by simp [hp'])
    simp only [List.zipWith_cons_cons, ih]
    rw [h1]

/-- Sums of terms which depend on three lists of the same length are compared term by term. -/
theorem zipWith_rel {α : Type} (g : α → α → K) : ∀ xs ys rs : List α, xs.length = ys.length →
    (∀ (i : Nat) (x y r : α), xs[i]? = some x → ys[i]? = some y → rs[i]? = some r → g x r ≤ g y r) →
    (List.zipWith g xs rs).sum ≤ (List.zipWith g ys rs).sum
  | [], [], _, _, _ => le_refl _
  | [], _ :: _, _, hl, _ => absurd hl (by simp)
  | _ :: _, [], _, hl, _ => absurd hl (by simp)
  | x :: xs, y :: ys, [], _, _ => le_refl _
  | x :: xs, y :: ys, r :: rs, hl, h => by
    have h1 := h 0 x y r rfl rfl rfl
    have ih := zipWith_rel g xs ys rs (by simpa using hl) fun i a b c ha hb hc =>
      h (i + 1) a b c (by simpa using ha) (by simpa using hb) (by simpa using hc)
    simp only [List.zipWith_cons_cons, List.sum_cons]
    exact add_le_add h1 ih

theorem target_mono {f : Fns K} (hf : ExpLaws f) (importance : Bool) {l l' : K} (r : K)
    (h : l ≤ l') : gradientTarget f importance l r ≤ gradientTarget f importance l' r := by
  unfold gradientTarget
  split
  · exact hf.exp_mono _ _ (clip_mono (by linarith))
  · exact h

theorem term_antitone {f : Fns K} (hf : ExpLaws f) (importance : Bool) (clipping : Option K)
    {l l' : K} (r reward : K) (h : l ≤ l') (hr : 0 ≤ reward) :
    gradientTerm f importance clipping l' r reward ≤
      gradientTerm f importance clipping l r reward := by
  have ht := target_mono hf importance r h
  unfold gradientTerm
  dsimp only
  cases clipping with
  | none => exact neg_le_neg (mul_le_mul_of_nonneg_right ht hr)
  | some c =>
    exact neg_le_neg (min_le_min (mul_le_mul_of_nonneg_right ht hr)
      (mul_le_mul_of_nonneg_right (clip_mono ht) hr))

theorem term_monotone {f : Fns K} (hf : ExpLaws f) (importance : Bool) (clipping : Option K)
    {l l' : K} (r reward : K) (h : l ≤ l') (hr : reward ≤ 0) :
    gradientTerm f importance clipping l r reward ≤
      gradientTerm f importance clipping l' r reward := by
  have ht := target_mono hf importance r h
  unfold gradientTerm
  dsimp only
  cases clipping with
  | none => exact neg_le_neg (mul_le_mul_of_nonpos_right ht hr)
  | some c =>
    exact neg_le_neg (min_le_min (mul_le_mul_of_nonpos_right ht hr)
      (mul_le_mul_of_nonpos_right (clip_mono ht) hr))

/-- Once the probability has changed by the factor `1 + c` in the direction which the reward asks
for, a further change in this direction has no effect. -/
theorem term_beyond {f : Fns K} (hf : ExpLaws f) (importance : Bool) (c : K) (hc : 0 ≤ c)
    (l l' reference reward : K) (hl : Beyond f c l reference reward)
    (hl' : Beyond f c l' reference reward) :
    gradientTerm f importance (some c) l reference reward =
      gradientTerm f importance (some c) l' reference reward := by
  have h1 : (0 : K) < 1 + c := by linarith
  have hi : 1 / (1 + c) ≤ 1 + c := by
    rw [div_le_iff₀ h1]
    nlinarith
  have hlog := log_factor_nonneg hf hc
  have he := log_eps_nonpos hf
  by_cases h0 : reward = 0
  · subst h0
    unfold gradientTerm
    dsimp only
    simp
  -- the value which the loss takes from both sides
  have key : ∀ m, Beyond f c m reference reward →
      gradientTerm f importance (some c) m reference reward =
        -((if importance then
            (if 0 < reward then min (1 + c) (f.exp (-f.log eps))
              else max (1 / (1 + c)) (f.exp (f.log eps)))
          else if 0 < reward then reference + f.log (1 + c)
            else reference - f.log (1 + c)) * reward) := by
    intro m hm
    unfold gradientTerm
    dsimp only
    rcases hm with ⟨hr, hm⟩ | ⟨hr, hm⟩
    · have hr' : 0 < reward := lt_of_le_of_ne hr (Ne.symm h0)
      rw [if_pos hr', if_pos hr']
      rw [log_le_iff hf h1] at hm
      cases importance with
      | false =>
        rw [if_neg (by simp), if_neg (by simp), if_neg (by simp)]
        have ht : gradientTarget f false m reference = m := rfl
        rw [ht, clip_eq_hi (by linarith), min_eq_right]
        exact mul_le_mul_of_nonneg_right (by linarith) hr
      | true =>
        rw [if_pos rfl, if_pos rfl, if_pos rfl]
        have ht : gradientTarget f true m reference =
          f.exp (clip (m - reference) (f.log eps) (-f.log eps)) := rfl
        rw [ht]
        rcases le_total (f.log (1 + c)) (-f.log eps) with h | h
        · have h2 : f.log (1 + c) ≤ clip (m - reference) (f.log eps) (-f.log eps) := by
            unfold clip
            exact le_min (le_trans hm (le_max_left _ _)) h
          have h3 := (log_le_iff hf h1).2 h2
          have h4 := (log_le_iff hf h1).2 h
          rw [clip_eq_hi h3, min_eq_right (mul_le_mul_of_nonneg_right h3 hr), min_eq_left h4]
        · rw [clip_eq_hi (le_trans h hm)]
          have h4 := (le_log_iff hf h1).2 h
          have h5 : 1 ≤ f.exp (-f.log eps) := by
            have := hf.exp_mono 0 (-f.log eps) (by linarith)
            rwa [exp_zero hf] at this
          rw [min_eq_right h4, clip_eq_self _ h4, min_self]
          refine le_trans ?_ h5
          rw [div_le_one h1]
          linarith
    · have hr' : ¬ 0 < reward := not_lt.2 hr
      rw [if_neg hr', if_neg hr']
      rw [le_log_iff hf (by positivity), log_inv hf h1] at hm
      cases importance with
      | false =>
        rw [if_neg (by simp), if_neg (by simp), if_neg (by simp)]
        have ht : gradientTarget f false m reference = m := rfl
        rw [ht, clip_eq_lo (by linarith) (by linarith), min_eq_right]
        exact mul_le_mul_of_nonpos_right (by linarith) hr
      | true =>
        rw [if_pos rfl, if_pos rfl, if_pos rfl]
        have ht : gradientTarget f true m reference =
          f.exp (clip (m - reference) (f.log eps) (-f.log eps)) := rfl
        rw [ht]
        rcases le_total (f.log eps) (-f.log (1 + c)) with h | h
        · have h2 : clip (m - reference) (f.log eps) (-f.log eps) ≤ -f.log (1 + c) := by
            unfold clip
            exact le_trans (min_le_left _ _) (max_le hm h)
          rw [← log_inv hf h1] at h2 h
          have h3 := (le_log_iff hf (show 0 < 1 / (1 + c) by positivity)).2 h2
          have h4 := (le_log_iff hf (show 0 < 1 / (1 + c) by positivity)).2 h
          rw [clip_eq_lo h3 hi, min_eq_right (mul_le_mul_of_nonpos_right h3 hr), max_eq_left h4]
        · rw [clip_eq_lo (le_trans hm h) (by linarith)]
          rw [← log_inv hf h1] at h
          have h4 := (log_le_iff hf (show 0 < 1 / (1 + c) by positivity)).2 h
          have h5 : f.exp (f.log eps) ≤ 1 := by
            have := hf.exp_mono (f.log eps) 0 (by linarith)
            rwa [exp_zero hf] at this
          rw [max_eq_right h4, clip_eq_self h4 (by linarith), min_self]
  rw [key l hl, key l' hl']

/-! ### Sums of objectives -/

theorem shapeSize_eq (shape : List Nat) : shapeSize shape = shape.prod := by
  induction shape with
  | nil => rfl
  | cons n shape ih => rw [List.prod_cons, ← ih]; rfl

theorem flatten_length (x : Instance K) (h : x.Shaped) :
    (logProbabilities x).length = ((x.actions.map (·.shape)).map shapeSize).sum := by
  obtain ⟨as, _, _, _, _⟩ := x
  unfold logProbabilities
  unfold Instance.Shaped at h
  dsimp only at h ⊢
  induction as with
  | nil => rfl
  | cons a as ih =>
    have h1 := (h a (by simp)).1
    have := ih fun b hb => h b (by simp [hb])
    simp only [List.map_cons, List.flatten_cons, List.length_append, List.sum_cons, h1,
      shapeSize_eq a.shape]
    rw [this]

theorem leaf_reference_length (l : Leaf K) (x : Instance K) (h : x.Shaped) :
    (l.reference x).length = l.size (x.actions.map (·.shape)) := by
  cases l with
  | value => rfl
  | detPolicyGradient => rfl
  | policyGradient i c e =>
    cases e with
    | true => rfl
    | false => exact flatten_length x h

theorem loss_plus (f : Fns K) (a b : Objective K) (x : Instance K) (reference : List K)
    (h : reference.length =
      a.size (x.actions.map (·.shape)) + b.size (x.actions.map (·.shape))) :
    (Objective.plus a b).loss f x reference =
      match a.loss f x (reference.take (a.size (x.actions.map (·.shape)))) with
      | .error e => .error e
      | .ok loss1 =>
        match b.loss f x (reference.drop (a.size (x.actions.map (·.shape)))) with
        | .error e => .error e
        | .ok loss2 => .ok (loss1 + loss2) := by
  conv => lhs; unfold Objective.loss
  dsimp only
  rw [if_pos h]
  cases a.loss f x (reference.take (a.size (x.actions.map (·.shape)))) with
  | error e => rfl
  | ok loss1 => cases b.loss f x (reference.drop (a.size (x.actions.map (·.shape)))) <;> rfl

theorem sumOfLosses_append (f : Fns K) (before now : Instance K) : ∀ xs ys : List (Leaf K),
    sumOfLosses f before now (xs ++ ys) =
      match sumOfLosses f before now xs with
      | .error e => .error e
      | .ok a =>
        match sumOfLosses f before now ys with
        | .error e => .error e
        | .ok b => .ok (a + b)
  | [], ys => by
    simp only [List.nil_append, sumOfLosses]
    cases sumOfLosses f before now ys <;> simp
  | x :: xs, ys => by
    simp only [List.cons_append, sumOfLosses]
    rw [sumOfLosses_append f before now xs ys]
    cases x.loss f now (x.reference before) with
    | error e => rfl
    | ok a =>
      cases sumOfLosses f before now xs with
      | error e => rfl
      | ok b =>
        cases sumOfLosses f before now ys with
        | error e => rfl
        | ok c => simp [add_assoc]

end Verif.Objective
