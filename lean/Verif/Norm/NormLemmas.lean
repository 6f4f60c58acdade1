import Verif.Norm.GroupLemmas
import Mathlib.Data.List.Induction

/-!
# Facts about the normalization layers
-/

namespace Verif.Norm

variable {K : Type} [Field K] [LinearOrder K]

/-- Factor by which differences from the mean are multiplied. -/
def factor (c : Config K) (f : K → K) (v : K) : K := if c.onlyMean then 1 else f (max v c.minVariance)

theorem cell_eq {s a : List Nat} {row : List K} (ha : a ∈ indices s) (h : row.length = count s) :
    ∃ hp : place s a < row.length, cell s row a = row[place s a] := by
  have hp : place s a < row.length := h ▸ place_lt ha
  refine ⟨hp, ?_⟩
  unfold cell
  rw [List.getD_eq_getElem?_getD, List.getElem?_eq_getElem hp]
  rfl

theorem normalize_length (c : Config K) (f : K → K) (mean var row : List K) : (normalize c f mean var row).length = row.length := by
  unfold normalize
  rw [List.length_mapIdx]

theorem normalize_cell {c : Config K} {f : K → K} {mean var row a : List K} {b : List Nat} (hb : b ∈ indices c.shape)
    (h : row.length = count c.shape) :
    cell c.shape (normalize c f mean var row) b = (cell c.shape row b - cell c.shape mean b) * factor c f (cell c.shape var b) := by
  obtain ⟨hp, e⟩ := cell_eq hb h
  obtain ⟨hp', e'⟩ := cell_eq (row := normalize c f mean var row) hb (by rw [normalize_length, h])
  rw [e, e']
  simp only [normalize, List.getElem_mapIdx, factor, cell]
  by_cases ho : c.onlyMean = true
  · rw [if_pos ho, if_pos ho, mul_one]
  · rw [if_neg ho, if_neg ho]

theorem cells_map (s : List Nat) (rows : List (List K)) (g : List (List Nat)) (h : List K → List K) (φ : K → K)
    (hφ : ∀ r ∈ rows, ∀ b ∈ g, cell s (h r) b = φ (cell s r b)) : cells s (rows.map h) g = (cells s rows g).map φ := by
  unfold cells
  rw [List.flatMap_map, List.map_flatMap]
  apply List.flatMap_congr
  intro r hr
  rw [List.map_map]
  apply List.map_congr_left
  intro b hb
  exact hφ r hr b hb

/-- Mean of the group of an entry. -/
def groupMean (c : Config K) (rows : List (List K)) (a : List Nat) : K := avg (cells c.shape rows (group c.axes c.shape a))

/-- Variance of the group of an entry. -/
def groupVar (c : Config K) (rows : List (List K)) (a : List Nat) : K :=
  avg ((cells c.shape rows (group c.axes c.shape a)).map (fun x => (x - groupMean c rows a) ^ 2))

theorem cell_means {c : Config K} {a : List Nat} (ha : a ∈ indices c.shape) (rows : List (List K)) :
    cell c.shape (means c.axes c.shape rows) a = groupMean c rows a := means_at ha rows

theorem cell_variances {c : Config K} {a : List Nat} (ha : a ∈ indices c.shape) (rows : List (List K)) :
    cell c.shape (variances c.axes c.shape rows) a = groupVar c rows a := variances_at ha rows

theorem groupMean_eq {c : Config K} {a b : List Nat} (h : Along c.axes c.shape a b) (rows : List (List K)) :
    groupMean c rows b = groupMean c rows a := by unfold groupMean; rw [group_eq h]

theorem groupVar_eq {c : Config K} {a b : List Nat} (h : Along c.axes c.shape a b) (rows : List (List K)) :
    groupVar c rows b = groupVar c rows a := by unfold groupVar; rw [group_eq h, groupMean_eq h]

theorem row_cell {c : Config K} {f : K → K} {rows : List (List K)} {a b : List Nat} {r : List K}
    (hb : b ∈ group c.axes c.shape a) (h : r.length = count c.shape) :
    cell c.shape (normalize c f (means c.axes c.shape rows) (variances c.axes c.shape rows) r) b =
      (cell c.shape r b - groupMean c rows a) * factor c f (groupVar c rows a) := by
  obtain ⟨hi, hal⟩ := mem_group hb
  rw [normalize_cell (a := []) hi h, cell_means hi, cell_variances hi, groupMean_eq hal, groupVar_eq hal]

theorem batch_cells {c : Config K} {f : K → K} {rows : List (List K)} {a : List Nat} (hr : Rows c.shape rows) :
    cells c.shape (batchNorm c f rows) (group c.axes c.shape a) =
      (cells c.shape rows (group c.axes c.shape a)).map (fun x => (x - groupMean c rows a) * factor c f (groupVar c rows a)) := by
  unfold batchNorm
  apply cells_map
  intro r h b hb
  exact row_cell hb (hr r h)

theorem instance_eq (c : Config K) (f : K → K) (rows : List (List K)) :
    instanceNorm c f rows = rows.flatMap (fun r => batchNorm c f [r]) := by
  unfold instanceNorm batchNorm
  induction rows with
  | nil => rfl
  | cons r rows ih => rw [List.map_cons, ih, List.flatMap_cons]; rfl

theorem single {c : Config K} {f : K → K} {rows : List (List K)} {k : Nat} {r o : List K} (h1 : rows[k]? = some r)
    (h2 : (instanceNorm c f rows)[k]? = some o) : batchNorm c f [r] = [o] := by
  unfold instanceNorm at h2
  rw [List.getElem?_map, h1] at h2
  cases h2
  rfl

omit [LinearOrder K] in
theorem single_rows {s : List Nat} {rows : List (List K)} {k : Nat} {r : List K} (hr : Rows s rows) (h1 : rows[k]? = some r) :
    Rows s [r] := fun x hx => by
  rw [List.mem_singleton.1 hx]
  exact hr r (List.mem_of_getElem? h1)

section

variable [IsStrictOrderedRing K]

theorem mean_zero {l : List K} {m r : K} (h : Mean l m) : Mean (l.map (fun x => (x - m) * r)) 0 := by
  refine ⟨fun e => h.1 (List.map_eq_nil_iff.1 e), ?_⟩
  have : (l.map (fun x => (x - m) * r)) = ((l.map (fun x => x - m)).map (fun x => x * r)) := by rw [List.map_map]; rfl
  rw [this, sum_scale, sum_sub, h.2]
  ring

theorem mean_scale {l : List K} {m : K} (r : K) (h : Mean l m) : Mean (l.map (fun x => x * r)) (m * r) := by
  refine ⟨fun e => h.1 (List.map_eq_nil_iff.1 e), ?_⟩
  rw [sum_scale, List.length_map, ← h.2]
  ring

theorem variance_scale {l : List K} {m v : K} (r : K) (hm : Mean l m) (hv : Mean (l.map (fun x => (x - m) ^ 2)) v) :
    Variance (l.map (fun x => (x - m) * r)) (v * r ^ 2) := by
  refine ⟨0, mean_zero hm, ?_⟩
  have h := mean_scale (r ^ 2) hv
  rw [List.map_map] at h ⊢
  have e : ((fun x : K => (x - 0) ^ 2) ∘ fun x => (x - m) * r) = (fun x => x * r ^ 2) ∘ fun x => (x - m) ^ 2 := by
    funext x
    simp only [Function.comp]
    ring
  rw [e]
  exact h

theorem sum_nonneg_list {l : List K} (hl : ∀ x ∈ l, 0 ≤ x) : 0 ≤ l.sum := by
  induction l with
  | nil => exact le_refl _
  | cons x l ih =>
    rw [List.sum_cons]
    exact add_nonneg (hl x List.mem_cons_self) (ih (fun y hy => hl y (List.mem_cons_of_mem _ hy)))

theorem mean_nonneg {l : List K} {m : K} (h : Mean l m) (hl : ∀ x ∈ l, 0 ≤ x) : 0 ≤ m := by
  have h1 : 0 ≤ l.sum := sum_nonneg_list hl
  have h2 : (0 : K) < l.length := Nat.cast_pos.2 (List.length_pos_of_ne_nil h.1)
  rw [← h.2] at h1
  exact nonneg_of_mul_nonneg_left h1 h2

theorem sum_between {l : List K} {lo hi : K} (hl : ∀ x ∈ l, lo ≤ x ∧ x ≤ hi) : lo * l.length ≤ l.sum ∧ l.sum ≤ hi * l.length := by
  induction l with
  | nil => simp
  | cons x l ih =>
    obtain ⟨h1, h2⟩ := ih (fun y hy => hl y (List.mem_cons_of_mem _ hy))
    obtain ⟨h3, h4⟩ := hl x List.mem_cons_self
    rw [List.sum_cons, List.length_cons, Nat.cast_add, Nat.cast_one]
    constructor <;> linarith

theorem mean_between {l : List K} {m lo hi : K} (h : Mean l m) (hl : ∀ x ∈ l, lo ≤ x ∧ x ≤ hi) : lo ≤ m ∧ m ≤ hi := by
  obtain ⟨h1, h2⟩ := sum_between hl
  have hp : (0 : K) < l.length := Nat.cast_pos.2 (List.length_pos_of_ne_nil h.1)
  rw [← h.2] at h1 h2
  exact ⟨le_of_mul_le_mul_right h1 hp, le_of_mul_le_mul_right h2 hp⟩

theorem variance_nonneg {l : List K} {v : K} (h : Variance l v) : 0 ≤ v := by
  obtain ⟨m, _, hv⟩ := h
  apply mean_nonneg hv
  intro x hx
  obtain ⟨y, _, e⟩ := List.mem_map.1 hx
  rw [← e]
  exact sq_nonneg _

theorem variance_unique {l : List K} {v w : K} (h : Variance l v) (h' : Variance l w) : v = w := by
  obtain ⟨m, hm, hv⟩ := h
  obtain ⟨m', hm', hw⟩ := h'
  have := mean_unique hm hm'
  subst this
  exact mean_unique hv hw

theorem groupMean_mean {c : Config K} {rows : List (List K)} {a : List Nat} (ha : a ∈ indices c.shape) (h : rows ≠ []) :
    Mean (cells c.shape rows (group c.axes c.shape a)) (groupMean c rows a) := avg_mean (cells_ne_nil ha h)

theorem groupVar_mean {c : Config K} {rows : List (List K)} {a : List Nat} (ha : a ∈ indices c.shape) (h : rows ≠ []) :
    Mean ((cells c.shape rows (group c.axes c.shape a)).map (fun x => (x - groupMean c rows a) ^ 2)) (groupVar c rows a) :=
  avg_mean (fun e => cells_ne_nil ha h (List.map_eq_nil_iff.1 e))

theorem groupVar_variance {c : Config K} {rows : List (List K)} {a : List Nat} (ha : a ∈ indices c.shape) (h : rows ≠ []) :
    Variance (cells c.shape rows (group c.axes c.shape a)) (groupVar c rows a) := ⟨_, groupMean_mean ha h, groupVar_mean ha h⟩

theorem factor_pos {c : Config K} {f : K → K} (hf : Rsqrt f) (hm : 0 < c.minVariance) (v : K) : 0 < factor c f v := by
  unfold factor
  split
  · exact one_pos
  · exact (hf _ (lt_of_lt_of_le hm (le_max_right _ _))).1

end

/-! ## Moving mean and variance -/

theorem means_length (axes s : List Nat) (rows : List (List K)) : (means axes s rows).length = count s := by
  unfold means; rw [List.length_map, List.length_range, size_eq]

theorem variances_length (axes s : List Nat) (rows : List (List K)) : (variances axes s rows).length = count s := by
  unfold variances; rw [List.length_map, List.length_range, size_eq]

theorem mix_length {w : K} {o n : List K} {k : Nat} (ho : o.length = k) (hn : n.length = k) : (mix w o n).length = k := by
  unfold mix; rw [List.length_zipWith, ho, hn, Nat.min_self]

theorem mix_cell {w : K} {o n : List K} {s a : List Nat} (ha : a ∈ indices s) (ho : o.length = count s) (hn : n.length = count s) :
    cell s (mix w o n) a = w * cell s o a + (1 - w) * cell s n a := by
  obtain ⟨h1, e1⟩ := cell_eq ha ho
  obtain ⟨h2, e2⟩ := cell_eq ha hn
  obtain ⟨h3, e3⟩ := cell_eq ha (mix_length (w := w) ho hn)
  rw [e1, e2, e3]
  simp only [mix, List.getElem_zipWith]

theorem mix_self {w : K} (o : List K) : mix w o o = o := by
  unfold mix
  apply List.ext_getElem
  · rw [List.length_zipWith, Nat.min_self]
  · intro i h1 h2
    rw [List.getElem_zipWith]
    ring

theorem mix_zero {o n : List K} (h : o.length = n.length) : mix 0 o n = n := by
  unfold mix
  apply List.ext_getElem
  · rw [List.length_zipWith, h, Nat.min_self]
  · intro i h1 h2
    rw [List.getElem_zipWith]
    ring

theorem mix_one {o n : List K} (h : o.length = n.length) : mix 1 o n = o := by
  unfold mix
  apply List.ext_getElem
  · rw [List.length_zipWith, h, Nat.min_self]
  · intro i h1 h2
    rw [List.getElem_zipWith]
    ring

theorem initial_fits (c : Config K) : (initial c).Fits c.shape := by
  unfold initial Moving.Fits
  rw [List.length_replicate, List.length_replicate, size_eq]
  exact ⟨rfl, rfl⟩

/-- After a batch which is not empty, in one formula. -/
theorem moved {c : Config K} {f : K → K} {d : K} {const : Bool} {m : Moving K} {rows : List (List K)} (hf : m.Fits c.shape)
    (h : rows ≠ []) :
    (exponential c f d const false m rows).1 =
      ⟨mix (d ^ rows.length) m.mean (means c.axes c.shape rows),
        if c.onlyMean then m.variance else mix (d ^ rows.length) m.variance (variances c.axes c.shape rows)⟩ := by
  have hne : rows.isEmpty = false := by cases rows with
    | nil => exact absurd rfl h
    | cons r rows => rfl
  have hlen : rows.length ≠ 0 := fun e => h (List.length_eq_zero_iff.1 e)
  have l1 : m.mean.length = (means c.axes c.shape rows).length := by rw [means_length, hf.1]
  have l2 : m.variance.length = (variances c.axes c.shape rows).length := by rw [variances_length, hf.2]
  unfold exponential
  dsimp only
  rw [Bool.false_or]
  by_cases h1 : (const && decide (d = 1)) = true
  · rw [if_pos h1]
    have hd : d = 1 := of_decide_eq_true (Bool.and_eq_true_iff.1 h1).2
    rw [hd, one_pow, mix_one l1, mix_one l2, ite_self]
  · rw [if_neg h1]
    unfold update
    rw [hne]
    dsimp only
    rw [if_neg (by decide : ¬ (false = true))]
    by_cases h0 : (const && decide (d = 0)) = true
    · rw [if_pos h0]
      have hd : d = 0 := of_decide_eq_true (Bool.and_eq_true_iff.1 h0).2
      rw [hd, zero_pow hlen, mix_zero l1, mix_zero l2]
    · rw [if_neg h0]
      by_cases ho : c.onlyMean = true
      · simp only [if_pos ho]
      · simp only [if_neg ho]

theorem moved_empty {c : Config K} {f : K → K} {d : K} {const ind : Bool} {m : Moving K} :
    (exponential c f d const ind m []).1 = m := by
  unfold exponential
  dsimp only
  split
  · rfl
  · unfold update
    dsimp only [List.isEmpty_nil]
    rw [if_pos rfl]
    split
    · rfl
    · rw [mix_self, mix_self, ite_self]

theorem moved_fits {c : Config K} {f : K → K} {d : K} {const ind : Bool} {m : Moving K} {rows : List (List K)} (hf : m.Fits c.shape) :
    (exponential c f d const ind m rows).1.Fits c.shape := by
  cases ind with
  | true => exact hf
  | false =>
    by_cases h : rows = []
    · rw [h, moved_empty]; exact hf
    · rw [moved hf h]
      refine ⟨mix_length hf.1 (means_length _ _ _), ?_⟩
      show (if c.onlyMean then _ else _ : List K).length = _
      split
      · exact hf.2
      · exact mix_length hf.2 (variances_length _ _ _)

theorem moved_mean {c : Config K} {f : K → K} {d : K} {const : Bool} {m : Moving K} {rows : List (List K)} {a : List Nat}
    (hf : m.Fits c.shape) (h : rows ≠ []) (ha : a ∈ indices c.shape) :
    cell c.shape (exponential c f d const false m rows).1.mean a =
      d ^ rows.length * cell c.shape m.mean a + (1 - d ^ rows.length) * groupMean c rows a := by
  rw [moved hf h]
  show cell c.shape (mix _ _ _) a = _
  rw [mix_cell ha hf.1 (means_length _ _ _), cell_means ha]

theorem moved_variance {c : Config K} {f : K → K} {d : K} {const : Bool} {m : Moving K} {rows : List (List K)} {a : List Nat}
    (hf : m.Fits c.shape) (h : rows ≠ []) (ha : a ∈ indices c.shape) (ho : c.onlyMean = false) :
    cell c.shape (exponential c f d const false m rows).1.variance a =
      d ^ rows.length * cell c.shape m.variance a + (1 - d ^ rows.length) * groupVar c rows a := by
  rw [moved hf h]
  show cell c.shape (if c.onlyMean then _ else mix _ _ _) a = _
  rw [ho, if_neg (by decide), mix_cell ha hf.2 (variances_length _ _ _), cell_variances ha]

theorem steps_fits {c : Config K} {f : K → K} {d : K} {const : Bool} {m : Moving K} {xs : List (List K)} (hf : m.Fits c.shape) :
    (steps c f d const m xs).Fits c.shape := by
  induction xs generalizing m with
  | nil => exact hf
  | cons x xs ih => exact ih (moved_fits hf)

omit [LinearOrder K] in
theorem weighted_nil (d : K) : weighted d [] = 0 := rfl

omit [LinearOrder K] in
theorem weighted_snoc (d : K) (xs : List K) (x : K) : weighted d (xs ++ [x]) = d * weighted d xs + x := by
  unfold weighted
  rw [List.reverse_append]
  show ((x :: xs.reverse).mapIdx (fun i x => d ^ i * x)).sum = _
  rw [List.mapIdx_cons, List.sum_cons, pow_zero, one_mul, add_comm]
  congr 1
  rw [mul_comm, ← sum_scale]
  congr 1
  apply List.ext_getElem
  · rw [List.length_mapIdx, List.length_map, List.length_mapIdx]
  · intro i h1 h2
    rw [List.getElem_mapIdx, List.getElem_map, List.getElem_mapIdx]
    ring

theorem steps_snoc (c : Config K) (f : K → K) (d : K) (const : Bool) (m : Moving K) (xs : List (List K)) (x : List K) :
    steps c f d const m (xs ++ [x]) = (exponential c f d const false (steps c f d const m xs) [x]).1 := by
  unfold steps
  rw [List.foldl_append]
  rfl

theorem steps_mean_eq {c : Config K} {f : K → K} {d : K} {const : Bool} {m : Moving K} {a : List Nat} (xs : List (List K))
    (hf : m.Fits c.shape) (ha : a ∈ indices c.shape) :
    cell c.shape (steps c f d const m xs).mean a =
      d ^ xs.length * cell c.shape m.mean a + (1 - d) * weighted d (xs.map (fun x => groupMean c [x] a)) := by
  induction xs using List.reverseRecOn with
  | nil =>
    show cell c.shape m.mean a = d ^ 0 * cell c.shape m.mean a + (1 - d) * weighted d []
    rw [weighted_nil]
    ring
  | append_singleton xs x ih =>
    rw [steps_snoc, moved_mean (steps_fits hf) (List.cons_ne_nil _ _) ha, ih, List.map_append, List.map_cons, List.map_nil,
      weighted_snoc, List.length_append]
    show d ^ 1 * _ + (1 - d ^ 1) * _ = d ^ (xs.length + 1) * _ + _
    ring

theorem steps_variance_eq {c : Config K} {f : K → K} {d : K} {const : Bool} {m : Moving K} {a : List Nat} (xs : List (List K))
    (hf : m.Fits c.shape) (ha : a ∈ indices c.shape) (ho : c.onlyMean = false) :
    cell c.shape (steps c f d const m xs).variance a =
      d ^ xs.length * cell c.shape m.variance a + (1 - d) * weighted d (xs.map (fun x => groupVar c [x] a)) := by
  induction xs using List.reverseRecOn with
  | nil =>
    show cell c.shape m.variance a = d ^ 0 * cell c.shape m.variance a + (1 - d) * weighted d []
    rw [weighted_nil]
    ring
  | append_singleton xs x ih =>
    rw [steps_snoc, moved_variance (steps_fits hf) (List.cons_ne_nil _ _) ha ho, ih, List.map_append, List.map_cons, List.map_nil,
      weighted_snoc, List.length_append]
    show d ^ 1 * _ + (1 - d ^ 1) * _ = d ^ (xs.length + 1) * _ + _
    ring

omit [LinearOrder K] in
theorem weighted_const (d x : K) (n : Nat) : (1 - d) * weighted d (List.replicate n x) = (1 - d ^ n) * x := by
  induction n with
  | zero =>
    show (1 - d) * weighted d [] = _
    rw [weighted_nil]
    ring
  | succ n ih =>
    rw [List.replicate_succ', weighted_snoc, mul_add, ← mul_assoc, mul_comm (1 - d) d, mul_assoc, ih]
    ring

end Verif.Norm
