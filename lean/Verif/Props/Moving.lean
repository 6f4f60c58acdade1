import Verif.Norm.NormLemmas

/-!
# C120: exponential normalization
-/

namespace Verif.Props.Moving

open Verif.Norm

variable {K : Type} [Field K] [LinearOrder K]

/-- At first the mean is zero and the variance one at each entry. -/
theorem initial_values (c : Config K) (a : List Nat) (ha : a ∈ indices c.shape) :
    (initial c).Fits c.shape ∧ cell c.shape (initial c).mean a = 0 ∧ cell c.shape (initial c).variance a = 1 := by
  refine ⟨initial_fits c, ?_, ?_⟩
  · obtain ⟨hp, e⟩ := cell_eq ha (initial_fits c).1
    rw [e]
    exact List.getElem_replicate hp
  · obtain ⟨hp, e⟩ := cell_eq ha (initial_fits c).2
    rw [e]
    exact List.getElem_replicate hp

/-- Independent calls, empty batches and a constant decay of one change nothing. -/
theorem unchanged (c : Config K) (f : K → K) (d : K) (const ind : Bool) (m : Moving K) (rows : List (List K))
    (h : ind = true ∨ rows = [] ∨ (const = true ∧ d = 1)) : (exponential c f d const ind m rows).1 = m := by
  rcases h with e | e | ⟨e, e'⟩
  · subst e
    rfl
  · subst e
    exact moved_empty
  · subst e e'
    unfold exponential
    dsimp only
    rw [decide_eq_true rfl, Bool.and_true, Bool.or_true, if_pos rfl]

/-- Numbers of rows and entries are kept. -/
theorem output_shape (c : Config K) (f : K → K) (d : K) (const ind : Bool) (m : Moving K) (rows : List (List K)) :
    (exponential c f d const ind m rows).2.map List.length = rows.map List.length := by
  unfold exponential
  dsimp only
  rw [List.map_map]
  apply List.map_congr_left
  intro r _
  exact normalize_length _ _ _ _ _

/-- Each entry of the output is the difference from the mean after the call, times a factor which is the reciprocal square root of the
variance after the call, or of the minimum if that is larger; or one, if only the mean is normalized. -/
theorem output (c : Config K) (f : K → K) (d : K) (const ind : Bool) (m : Moving K) (rows : List (List K)) (a : List Nat) (k : Nat)
    (r o : List K) (hf : Rsqrt f) (hm : 0 < c.minVariance) (hr : Rows c.shape rows) (ha : a ∈ indices c.shape)
    (h1 : rows[k]? = some r) (h2 : (exponential c f d const ind m rows).2[k]? = some o) :
    let m' := (exponential c f d const ind m rows).1
    (c.onlyMean = true → cell c.shape o a = cell c.shape r a - cell c.shape m'.mean a) ∧
    (c.onlyMean = false → ∃ q, 0 < q ∧ q ^ 2 * max (cell c.shape m'.variance a) c.minVariance = 1 ∧
      cell c.shape o a = (cell c.shape r a - cell c.shape m'.mean a) * q) := by
  unfold exponential at h2 ⊢
  dsimp only at h2 ⊢
  generalize (if ind || (const && decide (d = 1)) then m else update c d const m rows) = m' at h2 ⊢
  rw [List.getElem?_map, h1] at h2
  cases h2
  rw [normalize_cell (a := []) ha (hr r (List.mem_of_getElem? h1))]
  unfold factor
  refine ⟨fun ho => ?_, fun ho => ?_⟩
  · rw [ho, if_pos rfl, mul_one]
  · rw [ho, if_neg (by decide)]
    obtain ⟨h3, h4⟩ := hf _ (lt_of_lt_of_le hm (le_max_right (cell c.shape m'.variance a) c.minVariance))
    exact ⟨_, h3, h4, rfl⟩

section

variable [IsStrictOrderedRing K]

/-- A batch of `n` time steps: the old mean has weight `d ^ n`, the mean of the batch the rest. -/
theorem batch_mean (c : Config K) (f : K → K) (d : K) (const : Bool) (m : Moving K) (rows : List (List K)) (a : List Nat) (x : K)
    (hf : m.Fits c.shape) (ha : a ∈ indices c.shape) (hx : Mean (cells c.shape rows (group c.axes c.shape a)) x) :
    cell c.shape (exponential c f d const false m rows).1.mean a =
      d ^ rows.length * cell c.shape m.mean a + (1 - d ^ rows.length) * x := by
  have hn : rows ≠ [] := fun e => hx.1 (by rw [e]; rfl)
  rw [moved_mean hf hn ha, mean_unique (groupMean_mean ha hn) hx]

/-- The same for the variance. -/
theorem batch_variance (c : Config K) (f : K → K) (d : K) (const : Bool) (m : Moving K) (rows : List (List K)) (a : List Nat) (v : K)
    (hf : m.Fits c.shape) (ha : a ∈ indices c.shape) (ho : c.onlyMean = false)
    (hv : Variance (cells c.shape rows (group c.axes c.shape a)) v) :
    cell c.shape (exponential c f d const false m rows).1.variance a =
      d ^ rows.length * cell c.shape m.variance a + (1 - d ^ rows.length) * v := by
  have hn : rows ≠ [] := fun e => by obtain ⟨_, h, _⟩ := hv; exact h.1 (by rw [e]; rfl)
  rw [moved_variance hf hn ha ho, variance_unique (groupVar_variance ha hn) hv]

/-- Time steps one after another, as when acting: the exponentially weighted mean of the time steps. -/
theorem steps_mean (c : Config K) (f : K → K) (d : K) (const : Bool) (m : Moving K) (xs : List (List K)) (a : List Nat)
    (g : List K → K) (hf : m.Fits c.shape) (ha : a ∈ indices c.shape)
    (hg : ∀ x ∈ xs, Mean (cells c.shape [x] (group c.axes c.shape a)) (g x)) :
    cell c.shape (steps c f d const m xs).mean a = d ^ xs.length * cell c.shape m.mean a + (1 - d) * weighted d (xs.map g) := by
  rw [steps_mean_eq xs hf ha, List.map_congr_left (fun x hx => mean_unique (groupMean_mean ha (List.cons_ne_nil _ _)) (hg x hx))]

/-- The moving variance of time steps one after another: only the variance within each of them counts. -/
theorem steps_variance (c : Config K) (f : K → K) (d : K) (const : Bool) (m : Moving K) (xs : List (List K)) (a : List Nat)
    (g : List K → K) (hf : m.Fits c.shape) (ha : a ∈ indices c.shape) (ho : c.onlyMean = false)
    (hg : ∀ x ∈ xs, Variance (cells c.shape [x] (group c.axes c.shape a)) (g x)) :
    cell c.shape (steps c f d const m xs).variance a = d ^ xs.length * cell c.shape m.variance a + (1 - d) * weighted d (xs.map g) := by
  rw [steps_variance_eq xs hf ha ho, List.map_congr_left (fun x hx => variance_unique (groupVar_variance ha (List.cons_ne_nil _ _)) (hg x hx))]

/-- A batch gives the same mean as its time steps one after another if these have the same mean. What is missing: batches with time
steps of different means, see `batching_violation`. -/
theorem batching_partial (c : Config K) (f : K → K) (d : K) (const : Bool) (m : Moving K) (rows : List (List K)) (a : List Nat) (x : K)
    (hf : m.Fits c.shape) (ha : a ∈ indices c.shape) (hx : Mean (cells c.shape rows (group c.axes c.shape a)) x)
    (he : ∀ r ∈ rows, Mean (cells c.shape [r] (group c.axes c.shape a)) x) :
    cell c.shape (exponential c f d const false m rows).1.mean a = cell c.shape (steps c f d const m rows).mean a := by
  rw [batch_mean c f d const m rows a x hf ha hx, steps_mean c f d const m rows a (fun _ => x) hf ha he, List.map_const', weighted_const]

/-- The mean stays between bounds of the old mean and of the values. -/
theorem mean_range (c : Config K) (f : K → K) (d : K) (const ind : Bool) (m : Moving K) (rows : List (List K)) (a : List Nat) (lo hi : K)
    (hf : m.Fits c.shape) (ha : a ∈ indices c.shape) (hd : 0 ≤ d) (hd' : d ≤ 1)
    (h0 : lo ≤ cell c.shape m.mean a ∧ cell c.shape m.mean a ≤ hi)
    (hc : ∀ x ∈ cells c.shape rows (group c.axes c.shape a), lo ≤ x ∧ x ≤ hi) :
    lo ≤ cell c.shape (exponential c f d const ind m rows).1.mean a ∧ cell c.shape (exponential c f d const ind m rows).1.mean a ≤ hi := by
  cases ind with
  | true => exact h0
  | false =>
    by_cases hn : rows = []
    · rw [hn, moved_empty]; exact h0
    · have hm := groupMean_mean (c := c) ha hn
      rw [batch_mean c f d const m rows a _ hf ha hm]
      generalize groupMean c rows a = x at hm ⊢
      have hw0 : 0 ≤ d ^ rows.length := pow_nonneg hd _
      have hw1 : d ^ rows.length ≤ 1 := pow_le_one₀ hd hd'
      have hx := mean_between hm hc
      generalize d ^ rows.length = w at hw0 hw1 ⊢
      constructor
      · nlinarith [mul_le_mul_of_nonneg_left h0.1 hw0, mul_le_mul_of_nonneg_left hx.1 (sub_nonneg.2 hw1)]
      · nlinarith [mul_le_mul_of_nonneg_left h0.2 hw0, mul_le_mul_of_nonneg_left hx.2 (sub_nonneg.2 hw1)]

/-- The variance stays nonnegative. -/
theorem variance_nonneg (c : Config K) (f : K → K) (d : K) (const ind : Bool) (m : Moving K) (rows : List (List K)) (a : List Nat)
    (hf : m.Fits c.shape) (ha : a ∈ indices c.shape) (hd : 0 ≤ d) (hd' : d ≤ 1) (h0 : 0 ≤ cell c.shape m.variance a) :
    0 ≤ cell c.shape (exponential c f d const ind m rows).1.variance a := by
  cases ind with
  | true => exact h0
  | false =>
    by_cases hn : rows = []
    · rw [hn, moved_empty]; exact h0
    · cases ho : c.onlyMean with
      | true =>
        rw [moved hf hn]
        show 0 ≤ cell c.shape (if c.onlyMean then _ else _) a
        rw [ho, if_pos rfl]
        exact h0
      | false =>
        have hv := groupVar_variance (c := c) ha hn
        rw [batch_variance c f d const m rows a _ hf ha ho hv]
        exact add_nonneg (mul_nonneg (pow_nonneg hd _) h0) (mul_nonneg (sub_nonneg.2 (pow_le_one₀ hd hd')) (Verif.Norm.variance_nonneg hv))

/-- Without normalized axes, as by default for states which are numbers or vectors, time steps one after another never contribute to the
variance: it is `d ^ t` times the first one, whatever the values are. -/
theorem variance_violation (c : Config K) (f : K → K) (d : K) (const : Bool) (m : Moving K) (xs : List (List K)) (a : List Nat)
    (hf : m.Fits c.shape) (ha : a ∈ indices c.shape) (ho : c.onlyMean = false) (hg : group c.axes c.shape a = [a]) :
    cell c.shape (steps c f d const m xs).variance a = d ^ xs.length * cell c.shape m.variance a := by
  rw [steps_variance c f d const m xs a (fun _ => 0) hf ha ho ?_, List.map_const', weighted_const, mul_zero, add_zero]
  intro x _
  rw [hg]
  refine ⟨cell c.shape x a, ⟨List.cons_ne_nil _ _, ?_⟩, ⟨List.cons_ne_nil _ _, ?_⟩⟩
  · show cell c.shape x a * ((1 : Nat) : K) = cell c.shape x a + 0
    rw [Nat.cast_one]
    ring
  · show 0 * ((1 : Nat) : K) = (cell c.shape x a - cell c.shape x a) ^ 2 + 0
    ring

end

/-- Two time steps in a batch and one after the other give different means. -/
theorem batching_violation :
    (exponential (K := ℚ) ⟨[], [], false, 1 / 10000⟩ (fun _ => 1) (1 / 2) true false ⟨[0], [1]⟩ [[0], [1]]).1.mean = [3 / 8] ∧
      (steps (K := ℚ) ⟨[], [], false, 1 / 10000⟩ (fun _ => 1) (1 / 2) true ⟨[0], [1]⟩ [[0], [1]]).mean = [1 / 2] := by
  decide +kernel

example : (⟨[0], [1]⟩ : Moving ℚ).Fits [] ∧ [] ∈ indices [] ∧ group [] [] [] = [[]] ∧
    (steps (K := ℚ) ⟨[], allButLast [], false, 1 / 10000⟩ (fun _ => 1) (1 / 2) true ⟨[0], [1]⟩ [[8], [-4], [100]]).variance = [1 / 8] := by
  refine ⟨⟨rfl, rfl⟩, by decide, by decide, by decide +kernel⟩

/-- Weights of three time steps with decay one half. -/
example : weighted (1 / 2 : ℚ) [8, 4, 2] = 6 := by decide +kernel

/-- A batch of two equal time steps. -/
example : (exponential (K := ℚ) ⟨[2], [], false, 1 / 10000⟩ (fun _ => 1) (1 / 2) false false ⟨[0, 0], [1, 1]⟩ [[4, 8], [4, 8]]).1 =
    ⟨[3, 6], [1 / 4, 1 / 4]⟩ := by decide +kernel

end Verif.Props.Moving
