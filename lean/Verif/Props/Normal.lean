import Verif.Norm.NormLemmas
import Mathlib.Analysis.Real.Sqrt

/-!
# C121: instance and batch normalization
-/

namespace Verif.Props.Normal

open Verif.Norm

variable {K : Type} [Field K] [LinearOrder K]

/-- Numbers of rows and entries are kept. -/
theorem batch_shape (c : Config K) (f : K → K) (rows : List (List K)) :
    (batchNorm c f rows).map List.length = rows.map List.length := by
  unfold batchNorm
  rw [List.map_map]
  apply List.map_congr_left
  intro r _
  exact normalize_length _ _ _ _ _

theorem instance_shape (c : Config K) (f : K → K) (rows : List (List K)) :
    (instanceNorm c f rows).map List.length = rows.map List.length := by
  unfold instanceNorm
  rw [List.map_map]
  apply List.map_congr_left
  intro r _
  exact normalize_length _ _ _ _ _

/-- Instance normalization of a batch is that of each time step. -/
theorem instance_row (c : Config K) (f : K → K) (rows : List (List K)) (k : Nat) :
    (instanceNorm c f rows)[k]? = (rows[k]?).bind (fun r => (batchNorm c f [r])[0]?) := by
  unfold instanceNorm batchNorm
  rw [List.getElem?_map]
  cases rows[k]? <;> rfl

variable [IsStrictOrderedRing K]

/-- Entries normalized together have mean zero afterwards. -/
theorem batch_centered (c : Config K) (f : K → K) (rows : List (List K)) (a : List Nat) (hr : Rows c.shape rows) (hn : rows ≠ [])
    (ha : a ∈ indices c.shape) : Mean (cells c.shape (batchNorm c f rows) (group c.axes c.shape a)) 0 := by
  rw [batch_cells hr]
  exact mean_zero (groupMean_mean ha hn)

/-- Their variance `v` becomes `w = v / max v minimum`. -/
theorem batch_variance (c : Config K) (f : K → K) (rows : List (List K)) (a : List Nat) (hr : Rows c.shape rows) (hn : rows ≠ [])
    (ha : a ∈ indices c.shape) (hf : Rsqrt f) (hm : 0 < c.minVariance) (ho : c.onlyMean = false) (v : K)
    (hv : Variance (cells c.shape rows (group c.axes c.shape a)) v) :
    ∃ w, Variance (cells c.shape (batchNorm c f rows) (group c.axes c.shape a)) w ∧ w * max v c.minVariance = v := by
  have e : v = groupVar c rows a := variance_unique hv (groupVar_variance ha hn)
  subst e
  refine ⟨_, by rw [batch_cells hr]; exact variance_scale _ (groupMean_mean ha hn) (groupVar_mean ha hn), ?_⟩
  unfold factor
  rw [ho, if_neg (by decide)]
  have := (hf _ (lt_of_lt_of_le hm (le_max_right (groupVar c rows a) c.minVariance))).2
  rw [mul_assoc, this, mul_one]

/-- It is one unless the variance was below the minimum. -/
theorem batch_unit (c : Config K) (f : K → K) (rows : List (List K)) (a : List Nat) (hr : Rows c.shape rows) (hn : rows ≠ [])
    (ha : a ∈ indices c.shape) (hf : Rsqrt f) (hm : 0 < c.minVariance) (ho : c.onlyMean = false) (v : K)
    (hv : Variance (cells c.shape rows (group c.axes c.shape a)) v) (hb : c.minVariance ≤ v) :
    Variance (cells c.shape (batchNorm c f rows) (group c.axes c.shape a)) 1 := by
  obtain ⟨w, hw, e⟩ := batch_variance c f rows a hr hn ha hf hm ho v hv
  rw [max_eq_left hb] at e
  have hpos : v ≠ 0 := ne_of_gt (lt_of_lt_of_le hm hb)
  have : w = 1 := by
    apply mul_right_cancel₀ hpos
    rw [e, one_mul]
  rw [← this]
  exact hw

/-- It is never above one. -/
theorem batch_bounded (c : Config K) (f : K → K) (rows : List (List K)) (a : List Nat) (hr : Rows c.shape rows) (hn : rows ≠ [])
    (ha : a ∈ indices c.shape) (hf : Rsqrt f) (hm : 0 < c.minVariance) (ho : c.onlyMean = false) (w : K)
    (hw : Variance (cells c.shape (batchNorm c f rows) (group c.axes c.shape a)) w) : w ≤ 1 := by
  obtain ⟨w', hw', e⟩ := batch_variance c f rows a hr hn ha hf hm ho _ (groupVar_variance ha hn)
  have : w = w' := variance_unique hw hw'
  subst this
  have hpos : 0 < max (groupVar c rows a) c.minVariance := lt_of_lt_of_le hm (le_max_right _ _)
  by_contra hc
  have hc : 1 < w := not_le.1 hc
  have h1 : 1 * max (groupVar c rows a) c.minVariance < w * max (groupVar c rows a) c.minVariance := mul_lt_mul_of_pos_right hc hpos
  rw [e, one_mul] at h1
  exact absurd (le_max_left (groupVar c rows a) c.minVariance) (not_le.2 h1)

/-- Entries normalized together, of whichever time steps, keep their order. -/
theorem batch_order (c : Config K) (f : K → K) (rows : List (List K)) (a b b' : List Nat) (k k' : Nat) (r r' o o' : List K)
    (hr : Rows c.shape rows) (hf : Rsqrt f) (hm : 0 < c.minVariance) (hb : b ∈ group c.axes c.shape a) (hb' : b' ∈ group c.axes c.shape a)
    (h1 : rows[k]? = some r) (h2 : rows[k']? = some r') (h3 : (batchNorm c f rows)[k]? = some o)
    (h4 : (batchNorm c f rows)[k']? = some o') :
    cell c.shape o b < cell c.shape o' b' ↔ cell c.shape r b < cell c.shape r' b' := by
  unfold batchNorm at h3 h4
  rw [List.getElem?_map, h1] at h3
  rw [List.getElem?_map, h2] at h4
  cases h3
  cases h4
  rw [row_cell hb (hr r (List.mem_of_getElem? h1)), row_cell hb' (hr r' (List.mem_of_getElem? h2)),
    mul_lt_mul_iff_left₀ (factor_pos hf hm _), sub_lt_sub_iff_right]

/-- If only the mean is normalized, differences are kept. -/
theorem batch_differences (c : Config K) (f : K → K) (rows : List (List K)) (a b b' : List Nat) (k k' : Nat) (r r' o o' : List K)
    (hr : Rows c.shape rows) (ho : c.onlyMean = true) (hb : b ∈ group c.axes c.shape a) (hb' : b' ∈ group c.axes c.shape a)
    (h1 : rows[k]? = some r) (h2 : rows[k']? = some r') (h3 : (batchNorm c f rows)[k]? = some o)
    (h4 : (batchNorm c f rows)[k']? = some o') :
    cell c.shape o b - cell c.shape o' b' = cell c.shape r b - cell c.shape r' b' := by
  unfold batchNorm at h3 h4
  rw [List.getElem?_map, h1] at h3
  rw [List.getElem?_map, h2] at h4
  cases h3
  cases h4
  rw [row_cell hb (hr r (List.mem_of_getElem? h1)), row_cell hb' (hr r' (List.mem_of_getElem? h2))]
  unfold factor
  rw [ho, if_pos rfl]
  ring

/-- Instance normalization: mean zero in each time step. -/
theorem instance_centered (c : Config K) (f : K → K) (rows : List (List K)) (a : List Nat) (k : Nat) (r o : List K)
    (hr : Rows c.shape rows) (ha : a ∈ indices c.shape) (h1 : rows[k]? = some r) (h2 : (instanceNorm c f rows)[k]? = some o) :
    Mean (cells c.shape [o] (group c.axes c.shape a)) 0 := by
  rw [← single h1 h2]
  exact batch_centered c f [r] a (single_rows hr h1) (List.cons_ne_nil _ _) ha

/-- The variance in each time step. -/
theorem instance_variance (c : Config K) (f : K → K) (rows : List (List K)) (a : List Nat) (k : Nat) (r o : List K)
    (hr : Rows c.shape rows) (ha : a ∈ indices c.shape) (h1 : rows[k]? = some r) (h2 : (instanceNorm c f rows)[k]? = some o)
    (hf : Rsqrt f) (hm : 0 < c.minVariance) (ho : c.onlyMean = false) (v : K)
    (hv : Variance (cells c.shape [r] (group c.axes c.shape a)) v) :
    ∃ w, Variance (cells c.shape [o] (group c.axes c.shape a)) w ∧ w * max v c.minVariance = v ∧ w ≤ 1 ∧ (c.minVariance ≤ v → w = 1) := by
  rw [← single h1 h2]
  obtain ⟨w, hw, e⟩ := batch_variance c f [r] a (single_rows hr h1) (List.cons_ne_nil _ _) ha hf hm ho v hv
  exact ⟨w, hw, e, batch_bounded c f [r] a (single_rows hr h1) (List.cons_ne_nil _ _) ha hf hm ho w hw,
    fun hb => variance_unique hw (batch_unit c f [r] a (single_rows hr h1) (List.cons_ne_nil _ _) ha hf hm ho v hv hb)⟩

/-- Order, and differences if only the mean is normalized, within a time step. -/
theorem instance_order (c : Config K) (f : K → K) (rows : List (List K)) (a b b' : List Nat) (k : Nat) (r o : List K)
    (hr : Rows c.shape rows) (hf : Rsqrt f) (hm : 0 < c.minVariance) (hb : b ∈ group c.axes c.shape a) (hb' : b' ∈ group c.axes c.shape a)
    (h1 : rows[k]? = some r) (h2 : (instanceNorm c f rows)[k]? = some o) :
    (cell c.shape o b < cell c.shape o b' ↔ cell c.shape r b < cell c.shape r b') ∧
      (c.onlyMean = true → cell c.shape o b - cell c.shape o b' = cell c.shape r b - cell c.shape r b') := by
  have e := single h1 h2
  have e0 : (batchNorm c f [r])[0]? = some o := by rw [e]; rfl
  exact ⟨batch_order c f [r] a b b' 0 0 r r o o (single_rows hr h1) hf hm hb hb' rfl rfl e0 e0,
    fun ho => batch_differences c f [r] a b b' 0 0 r r o o (single_rows hr h1) ho hb hb' rfl rfl e0 e0⟩

/-- A state with a single entry, or a batch with a single time step without normalized axes, is zero afterwards: nothing is left of it. -/
theorem alone (c : Config K) (f : K → K) (r : List K) (a : List Nat) (ha : a ∈ indices c.shape) (hr : Rows c.shape [r])
    (hg : group c.axes c.shape a = [a]) : (batchNorm c f [r]).map (fun o => cell c.shape o a) = [0] := by
  have h := batch_centered c f [r] a hr (List.cons_ne_nil _ _) ha
  rw [hg] at h
  unfold batchNorm at h ⊢
  have h2 := h.2
  rw [zero_mul] at h2
  simp only [List.map_cons, List.map_nil, cells, List.flatMap_cons, List.flatMap_nil, List.append_nil, List.sum_cons, List.sum_nil, add_zero] at h2
  rw [List.map_cons, List.map_cons, List.map_nil, List.map_nil, ← h2]

/-- Two time steps with two entries, normalized over the batch: the groups are the columns. -/
example : (batchNorm (K := ℚ) ⟨[2], allButLast [2], false, 1 / 100⟩ (fun _ => 1) [[1, 10], [3, 30]] = [[-1, -10], [1, 10]]) ∧
    [0] ∈ indices [2] ∧ group [] [2] [0] = [[0]] ∧ Rows (K := ℚ) [2] [[1, 10], [3, 30]] := by
  refine ⟨by decide +kernel, by decide, by decide, ?_⟩
  intro r hr
  simp only [List.mem_cons, List.not_mem_nil, or_false] at hr
  rcases hr with e | e <;> subst e <;> rfl

/-- Over axes: an entry of a matrix is normalized with its column (axis 0), or with all entries. -/
example : group [0] [2, 2] [0, 1] = [[0, 1], [1, 1]] ∧ group [0, 1] [2, 2] [0, 1] = [[0, 0], [0, 1], [1, 0], [1, 1]] ∧
    (instanceNorm (K := ℚ) ⟨[2, 2], allAxes [2, 2], true, 1 / 100⟩ (fun _ => 1) [[1, 2, 3, 6]] = [[-2, -1, 0, 3]]) := by
  refine ⟨by decide, by decide, by decide +kernel⟩

/-- The equation of the reciprocal square root holds for the real function. -/
example : Rsqrt (K := ℝ) (fun v => (√v)⁻¹) := by
  intro v hv
  have h := Real.sqrt_pos.2 hv
  refine ⟨inv_pos.2 h, ?_⟩
  rw [inv_pow, Real.sq_sqrt (le_of_lt hv), inv_mul_cancel₀ (ne_of_gt hv)]

end Verif.Props.Normal
