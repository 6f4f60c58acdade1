import Verif.Mix.Lemmas
import Mathlib.Algebra.Order.Field.Rat
import Mathlib.Algebra.Order.Ring.Abs
import Mathlib.Analysis.SpecialFunctions.Log.Basic
import Mathlib.Analysis.Real.Sqrt
import Mathlib.Tactic.NormNum

/-!
# C144: activation functions
-/

namespace Verif.Props.Activation
open Verif.Mix

variable {K : Type} [Field K] [LinearOrder K] {N : Numeric K}

/-- The functions of the real numbers are as expected. -/
theorem facts_real : Facts (⟨Real.exp, Real.log, Real.sqrt⟩ : Numeric ℝ) :=
  ⟨Real.exp_pos, Real.exp_add, fun _ _ h => Real.exp_lt_exp.2 h, fun _ h => Real.exp_log h, fun _ _ => Real.sqrt_nonneg _, fun _ h => Real.mul_self_sqrt h⟩

/-- Every documented name is accepted, and others are refused. -/
theorem accepted (a : Name) (x : List K) : (∃ y, activate N a x = .ok y) ↔ a ≠ .unknown := by
  cases a <;> first | exact ⟨fun _ => (nofun), fun _ => ⟨_, rfl⟩⟩ | exact ⟨fun h => (nomatch h.choose_spec), fun h => absurd rfl h⟩

theorem rejected (x : List K) : activate N .unknown x = .error .tensorforce := rfl

/-- All but `crelu` keep the size of the row. -/
theorem length_partial (a : Name) (ha : a ≠ .crelu) (x y : List K) (h : activate N a x = .ok y) : y.length = x.length := by
  cases a <;> first | exact absurd rfl ha | (rw [← Except.ok.inj h]; first | done | rfl | exact List.length_map _) | cases h

example : activate (⟨fun x => x, fun x => x, fun x => x⟩ : Numeric ℚ) .leakyRelu [-5, 3] = .ok [-1, 3] := by decide +kernel

/-- `crelu` doubles it, although the announced one is that of the input. -/
theorem crelu_violation (x : List K) : ∃ y, activate N .crelu x = .ok y ∧ y.length = 2 * x.length := by
  refine ⟨_, rfl, ?_⟩
  rw [List.length_append, List.length_map, List.length_map]
  omega

/-- Positive and negative parts, and what is kept. -/
theorem piecewise [IsStrictOrderedRing K] (x : K) :
    (∃ y, activate N .relu [x] = .ok [y] ∧ (0 ≤ x → y = x) ∧ (x ≤ 0 → y = 0)) ∧
    (∃ y, activate N .leakyRelu [x] = .ok [y] ∧ (0 ≤ x → y = x) ∧ (x ≤ 0 → 5 * y = x)) ∧
    (∃ y z, activate N .crelu [x] = .ok [y, z] ∧ y - z = x ∧ 0 ≤ y ∧ 0 ≤ z ∧ (y = 0 ∨ z = 0)) ∧
    activate N .none [x] = .ok [x] := by
  refine ⟨⟨_, rfl, fun h => max_eq_left h, fun h => max_eq_right h⟩, ⟨_, rfl, fun h => ?_, fun h => ?_⟩, ⟨_, _, rfl, ?_, ?_, ?_, ?_⟩, rfl⟩
  · exact max_eq_right (by linarith)
  · unfold leaky
    rw [max_eq_left (by linarith)]
    ring
  · change max x 0 - max (-x) 0 = x
    rcases le_total 0 x with h | h
    · rw [max_eq_left h, max_eq_right (by linarith)]; ring
    · rw [max_eq_right h, max_eq_left (by linarith)]; ring
  · exact le_max_right _ _
  · exact le_max_right _ _
  · unfold relu
    rcases le_total 0 x with h | h
    · exact .inr (max_eq_right (by linarith))
    · exact .inl (max_eq_right h)

example : activate (⟨fun x => x, fun x => x, fun x => x⟩ : Numeric ℚ) .crelu [-5] = .ok [0, 5] := by decide +kernel

/-- The defining equations of the other functions but `softmax`. -/
theorem equations [IsStrictOrderedRing K] (F : Facts N) (x : K) :
    (∃ y, activate N .sigmoid [x] = .ok [y] ∧ y * (N.exp x + 1) = N.exp x ∧ activate N .swish [x] = .ok [y * x]) ∧
    (∃ y, activate N .tanh [x] = .ok [y] ∧ y * (N.exp (2 * x) + 1) = N.exp (2 * x) - 1) ∧
    (∃ y, activate N .softplus [x] = .ok [y] ∧ N.exp y = 1 + N.exp x) ∧
    (∃ y, activate N .softsign [x] = .ok [y] ∧ (0 ≤ x → y * (1 + x) = x) ∧ (x ≤ 0 → y * (1 - x) = x)) ∧
    (∃ y, activate N .elu [x] = .ok [y] ∧ (0 ≤ x → y = x) ∧ (x ≤ 0 → y = N.exp x - 1)) ∧
    (∃ y, activate N .selu [x] = .ok [y] ∧ (0 ≤ x → 10 ^ 16 * y = 10507009873554805 * x) ∧
      (x ≤ 0 → 10 ^ 16 * y = 17580993408473768 * (N.exp x - 1))) := by
  have hp := F.exp_pos x
  have hn := F.exp_pos (-x)
  have hm := exp_neg F x
  refine ⟨⟨_, rfl, ?_, rfl⟩, ⟨_, rfl, ?_⟩, ⟨_, rfl, F.exp_log _ (by linarith)⟩, ⟨_, rfl, fun h => ?_, fun h => ?_⟩, ⟨_, rfl, fun h => ?_, fun h => ?_⟩,
    ⟨_, rfl, fun h => ?_, fun h => ?_⟩⟩
  · unfold sigmoid
    have : 1 + N.exp (-x) ≠ 0 := ne_of_gt (by linarith)
    rw [div_mul_eq_mul_div, div_eq_iff this]
    linarith
  · unfold tanh
    have h2 : N.exp (2 * x) = N.exp x * N.exp x := by rw [two_mul, F.exp_add]
    have : N.exp x + N.exp (-x) ≠ 0 := ne_of_gt (by linarith)
    rw [div_mul_eq_mul_div, div_eq_iff this, h2]
    have e1 : (N.exp x - N.exp (-x)) * (N.exp x * N.exp x + 1) = N.exp x * N.exp x * N.exp x + N.exp x - N.exp x * (N.exp x * N.exp (-x)) - N.exp (-x) := by ring
    have e2 : (N.exp x * N.exp x - 1) * (N.exp x + N.exp (-x)) = N.exp x * N.exp x * N.exp x + N.exp x * (N.exp x * N.exp (-x)) - N.exp x - N.exp (-x) := by ring
    rw [e1, e2, hm]
    ring
  · unfold softsign
    rw [abs_of_nonneg h]
    exact div_mul_cancel₀ _ (ne_of_gt (by linarith))
  · unfold softsign
    rw [abs_of_nonpos h]
    have : (1 + -x) ≠ 0 := ne_of_gt (by linarith)
    rw [show (1 - x) = 1 + -x from by ring]
    exact div_mul_cancel₀ _ this
  · unfold elu
    rw [if_neg (not_lt.2 h)]
  · unfold elu
    rcases lt_or_eq_of_le h with h | h
    · rw [if_pos h]
    · rw [h, if_neg (lt_irrefl _), exp_zero F, sub_self]
  · unfold selu
    rw [if_neg (not_lt.2 h)]
    ring
  · unfold selu
    rcases lt_or_eq_of_le h with h | h
    · rw [if_pos h]
      ring
    · rw [h, if_neg (lt_irrefl _), exp_zero F]
      ring

example : (⟨Real.exp, Real.log, Real.sqrt⟩ : Numeric ℝ).exp 0 = 1 := exp_zero facts_real

/-- The ranges of the bounded functions. -/
theorem ranges [IsStrictOrderedRing K] (F : Facts N) (x : List K) :
    (∃ y, activate N .sigmoid x = .ok y ∧ ∀ v ∈ y, 0 < v ∧ v < 1) ∧
    (∃ y, activate N .tanh x = .ok y ∧ ∀ v ∈ y, -1 < v ∧ v < 1) ∧
    (∃ y, activate N .softsign x = .ok y ∧ ∀ v ∈ y, -1 < v ∧ v < 1) ∧
    (∃ y, activate N .elu x = .ok y ∧ ∀ v ∈ y, -1 < v) ∧
    (∃ y, activate N .softplus x = .ok y ∧ ∀ v ∈ y, 0 < v) ∧
    (∃ y, activate N .relu x = .ok y ∧ ∀ v ∈ y, 0 ≤ v) := by
  refine ⟨⟨_, rfl, fun v hv => ?_⟩, ⟨_, rfl, fun v hv => ?_⟩, ⟨_, rfl, fun v hv => ?_⟩, ⟨_, rfl, fun v hv => ?_⟩, ⟨_, rfl, fun v hv => ?_⟩, ⟨_, rfl, fun v hv => ?_⟩⟩ <;>
    obtain ⟨u, _, rfl⟩ := List.mem_map.1 hv
  · have := F.exp_pos (-u)
    unfold sigmoid
    exact ⟨by positivity, (div_lt_one (by linarith)).2 (by linarith)⟩
  · have h1 := F.exp_pos (-u)
    have h2 := F.exp_pos u
    unfold tanh
    exact ⟨(lt_div_iff₀ (by linarith)).2 (by linarith), (div_lt_one (by linarith)).2 (by linarith)⟩
  · have h1 := abs_nonneg u
    have h2 := le_abs_self u
    have h3 := neg_abs_le u
    unfold softsign
    exact ⟨(lt_div_iff₀ (by linarith)).2 (by linarith), (div_lt_one (by linarith)).2 (by linarith)⟩
  · have := F.exp_pos u
    unfold elu
    split <;> linarith
  · have := F.exp_pos u
    refine lt_of_exp F ?_
    rw [exp_zero F]
    unfold softplus
    rw [F.exp_log _ (by linarith)]
    linarith
  · exact le_max_right _ _

/-- The values of `softmax` are positive with sum 1, proportional to the exponential function. -/
theorem softmax_distribution [IsStrictOrderedRing K] (F : Facts N) (x : List K) (hx : x ≠ []) :
    ∃ y, activate N .softmax x = .ok y ∧ (∀ v ∈ y, 0 < v) ∧ y.sum = 1 ∧
      ∀ (i j : Nat) (u v t t' : K), y[i]? = some u → y[j]? = some v → x[i]? = some t → x[j]? = some t' → u * N.exp t' = v * N.exp t :=
  ⟨_, rfl, softmax_pos F x, softmax_sum F x hx, softmax_ratio x⟩

/-- Greater inputs have greater outputs; for `relu` no smaller ones. -/
theorem increasing [IsStrictOrderedRing K] (F : Facts N) (a : Name)
    (ha : a ∈ [Name.elu, .leakyRelu, .none, .selu, .sigmoid, .softplus, .softsign, .tanh]) (x x' : K) (h : x < x') :
    (∃ y y', activate N a [x, x'] = .ok [y, y'] ∧ y < y') ∧ ∃ y y', activate N .relu [x, x'] = .ok [y, y'] ∧ y ≤ y' := by
  refine ⟨?_, _, _, rfl, max_le_max (le_of_lt h) (le_refl _)⟩
  simp only [List.mem_cons, List.not_mem_nil, or_false] at ha
  rcases ha with rfl | rfl | rfl | rfl | rfl | rfl | rfl | rfl
  · refine ⟨_, _, rfl, ?_⟩
    unfold elu
    have h1 := F.exp_lt _ _ h
    by_cases g : x' < 0
    · rw [if_pos (lt_trans h g), if_pos g]
      linarith
    · rw [if_neg g]
      by_cases g' : x < 0
      · rw [if_pos g']
        have := F.exp_lt _ _ g'
        rw [exp_zero F] at this
        linarith
      · rw [if_neg g']; exact h
  · exact ⟨_, _, rfl, max_lt_max (by linarith) h⟩
  · exact ⟨_, _, rfl, h⟩
  · refine ⟨_, _, rfl, ?_⟩
    unfold selu
    have h1 := F.exp_lt _ _ h
    by_cases g : x' < 0
    · rw [if_pos (lt_trans h g), if_pos g]
      exact mul_lt_mul_of_pos_left (by linarith) (by norm_num)
    · rw [if_neg g]
      by_cases g' : x < 0
      · rw [if_pos g']
        have := F.exp_lt _ _ g'
        rw [exp_zero F] at this
        have l1 : (17580993408473768 / 10000000000000000 : K) * (N.exp x - 1) < 0 := mul_neg_of_pos_of_neg (by norm_num) (by linarith)
        have l2 : (0 : K) ≤ 10507009873554805 / 10000000000000000 * x' := mul_nonneg (by norm_num) (not_lt.1 g)
        linarith
      · rw [if_neg g']
        exact mul_lt_mul_of_pos_left h (by norm_num)
  · refine ⟨_, _, rfl, ?_⟩
    unfold sigmoid
    have h1 := F.exp_pos (-x')
    have h2 := F.exp_lt (-x') (-x) (by linarith)
    exact one_div_lt_one_div_of_lt (by linarith) (by linarith)
  · refine ⟨_, _, rfl, lt_of_exp F ?_⟩
    unfold softplus
    have h1 := F.exp_pos x
    have h2 := F.exp_lt _ _ h
    rw [F.exp_log _ (by linarith), F.exp_log _ (by linarith)]
    linarith
  · refine ⟨_, _, rfl, ?_⟩
    unfold softsign
    have h1 := abs_nonneg x
    have h2 := abs_nonneg x'
    rw [div_lt_div_iff₀ (by linarith) (by linarith)]
    rcases le_total 0 x with g | g
    · rw [abs_of_nonneg g, abs_of_nonneg (by linarith)]
      linarith [mul_comm x x']
    · rcases le_total 0 x' with g' | g'
      · rw [abs_of_nonpos g, abs_of_nonneg g']
        have := mul_nonneg g' (neg_nonneg.2 g)
        linarith [mul_comm x x', mul_neg x' x]
      · rw [abs_of_nonpos g, abs_of_nonpos g']
        linarith [mul_comm x x', mul_neg x x', mul_neg x' x]
  · refine ⟨_, _, rfl, ?_⟩
    unfold tanh
    have p1 := F.exp_pos x
    have p2 := F.exp_pos (-x)
    have p3 := F.exp_pos x'
    have p4 := F.exp_pos (-x')
    have q1 := F.exp_lt _ _ h
    have q2 := F.exp_lt (-x') (-x) (by linarith)
    rw [div_lt_div_iff₀ (by linarith) (by linarith)]
    have := mul_lt_mul q1 (le_of_lt q2) p4 (le_of_lt p3)
    linarith [mul_comm (N.exp x) (N.exp (-x')), mul_comm (N.exp x') (N.exp (-x)), mul_comm (N.exp x) (N.exp x'), mul_comm (N.exp (-x)) (N.exp (-x')),
      mul_sub (N.exp x) (N.exp x') (N.exp (-x')), mul_add (N.exp x) (N.exp x') (N.exp (-x'))]

/-- Zero stays zero, and the odd functions are odd. -/
theorem zeros [IsStrictOrderedRing K] (F : Facts N) (a : Name)
    (ha : a ∈ [Name.elu, .leakyRelu, .none, .relu, .selu, .softsign, .swish, .tanh]) : activate N a [0] = .ok [0] := by
  have h := exp_zero F
  simp only [List.mem_cons, List.not_mem_nil, or_false] at ha
  rcases ha with rfl | rfl | rfl | rfl | rfl | rfl | rfl | rfl <;>
    simp [activate, elu, leaky, relu, selu, softsign, swish, tanh]

theorem odd [IsStrictOrderedRing K] (x : K) :
    (∃ y, activate N .softsign [x, -x] = .ok [y, -y]) ∧ ∃ y, activate N .tanh [x, -x] = .ok [y, -y] := by
  refine ⟨⟨softsign x, ?_⟩, ⟨tanh N x, ?_⟩⟩
  · change Except.ok [softsign x, softsign (-x)] = _
    unfold softsign
    rw [abs_neg, neg_div]
  · change Except.ok [tanh N x, tanh N (-x)] = _
    congr 3
    unfold tanh
    rw [neg_neg, ← neg_div, neg_sub, add_comm]

/-- The announced bounds, which are those of the input, hold for `relu`, `leaky-relu` and `none`, if the upper one is not negative. -/
theorem announced_partial [IsStrictOrderedRing K] (a : Name) (ha : a ∈ [Name.leakyRelu, .none, .relu]) (r : Range K) (hr : 0 ≤ r.upper) (x : List K) (h : Within r x) :
    ∃ y, activate N a x = .ok y ∧ Within (announce r) y := by
  simp only [List.mem_cons, List.not_mem_nil, or_false] at ha
  rcases ha with rfl | rfl | rfl
  · refine ⟨_, rfl, (List.length_map _).trans h.1, fun v hv => ?_⟩
    obtain ⟨u, hu, rfl⟩ := List.mem_map.1 hv
    obtain ⟨h1, h2⟩ := h.2 u hu
    refine ⟨le_trans h1 (le_max_right _ _), max_le ?_ h2⟩
    change 1 / 5 * u ≤ r.upper
    rcases le_total 0 u with g | g <;> linarith
  · exact ⟨_, rfl, h⟩
  · refine ⟨_, rfl, (List.length_map _).trans h.1, fun v hv => ?_⟩
    obtain ⟨u, hu, rfl⟩ := List.mem_map.1 hv
    obtain ⟨h1, h2⟩ := h.2 u hu
    exact ⟨le_trans h1 (le_max_left _ _), max_le h2 hr⟩

example : Within (⟨2, -1, 3⟩ : Range ℚ) [-1, 3] := ⟨rfl, by decide +kernel⟩

/-- Otherwise they need not hold. -/
theorem announced_violation [IsStrictOrderedRing K] (F : Facts N) :
    ∃ (r : Range K) (x : List K), Within r x ∧
      ∀ a ∈ [Name.sigmoid, .tanh, .softsign, .softmax], ∃ y, activate N a x = .ok y ∧ ¬ Within (announce r) y := by
  refine ⟨⟨1, 5, 6⟩, [5], ⟨rfl, fun v hv => by rw [List.mem_singleton.1 hv]; exact ⟨le_refl _, by norm_num⟩⟩, fun a ha => ?_⟩
  have small : ∀ v : K, v ≤ 1 → ¬ Within (announce ⟨1, 5, 6⟩) [v] := fun v hv hw => by
    have : (5 : K) ≤ v := (hw.2 v List.mem_cons_self).1
    linarith
  obtain ⟨⟨_, s1, s2⟩, ⟨_, t1, t2⟩, ⟨_, u1, u2⟩, _⟩ := ranges F [5]
  simp only [List.mem_cons, List.not_mem_nil, or_false] at ha
  rcases ha with rfl | rfl | rfl | rfl
  · refine ⟨_, rfl, small _ (le_of_lt (s2 _ ?_).2)⟩
    rw [← Except.ok.inj s1]; exact List.mem_cons_self
  · refine ⟨_, rfl, small _ (le_of_lt (t2 _ ?_).2)⟩
    rw [← Except.ok.inj t1]; exact List.mem_cons_self
  · refine ⟨_, rfl, small _ (le_of_lt (u2 _ ?_).2)⟩
    rw [← Except.ok.inj u1]; exact List.mem_cons_self
  · refine ⟨_, rfl, small _ ?_⟩
    have := softmax_sum F [(5 : K)] (List.cons_ne_nil _ _)
    unfold Mix.softmax at this
    rw [List.map_singleton, List.sum_singleton] at this
    exact le_of_eq this

end Verif.Props.Activation
