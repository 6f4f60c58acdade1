import Verif.Pool.Spec
import Mathlib.Algebra.Order.Ring.Defs
import Mathlib.Tactic.Linarith
import Mathlib.Data.List.Nodup

/-!
# Lemmas on pooling
-/

namespace Verif.Pool

theorem flatMap_length {α β : Type} (l : List α) (f : α → List β) (k : Nat) (h : ∀ i, (f i).length = k) : (l.flatMap f).length = l.length * k := by
  induction l with
  | nil => simp
  | cons i l ih => rw [List.flatMap_cons, List.length_append, ih, h, List.length_cons, Nat.add_mul, Nat.one_mul, Nat.add_comm]

section
variable {K : Type} [Field K] [LinearOrder K]

theorem total_eq (l : List K) : total l = l.sum := by
  induction l with
  | nil => rfl
  | cons x l ih => rw [total, ih, List.sum_cons]

theorem times_eq (l : List K) : times l = l.prod := by
  induction l with
  | nil => rfl
  | cons x l ih => rw [times, ih, List.prod_cons]

theorem highest_greatest (l : List K) (h : l ≠ []) : ∃ v, highest l = some v ∧ Greatest l v := by
  induction l with
  | nil => exact absurd rfl h
  | cons x l ih =>
    cases l with
    | nil => exact ⟨x, rfl, List.mem_cons_self, fun u hu => by rw [List.mem_singleton.1 hu]⟩
    | cons y l =>
      obtain ⟨v, h1, h2, h3⟩ := ih (List.cons_ne_nil _ _)
      refine ⟨max x v, by rw [highest, h1]; rfl, ?_, fun u hu => ?_⟩
      · rcases le_total x v with g | g
        · rw [max_eq_right g]; exact List.mem_cons_of_mem _ h2
        · rw [max_eq_left g]; exact List.mem_cons_self
      · rcases List.mem_cons.1 hu with rfl | hu
        · exact le_max_left _ _
        · exact le_trans (h3 u hu) (le_max_right _ _)

theorem average_mean [IsStrictOrderedRing K] (l : List K) (h : l ≠ []) : ∃ v, Pool.average l = some v ∧ Mean l v := by
  refine ⟨_, if_neg h, h, ?_⟩
  have : (l.length : K) ≠ 0 := Nat.cast_ne_zero.2 (fun h0 => h (List.length_eq_zero_iff.1 h0))
  rw [total_eq, div_mul_cancel₀ _ this]

theorem numbers_map {ι : Type} (l : List ι) (f : ι → K) : numbers (l.map (fun i => some (f i))) = some (l.map f) := by
  induction l with
  | nil => rfl
  | cons i l ih => rw [List.map_cons, numbers, ih]; rfl

theorem along_sum (n : Nat) (x : List Nat → K) :
    along .sum n (fun p => some (x p)) = fun p => some (((List.range n).map (fun i => x (i :: p))).sum) := by
  funext p
  unfold along reduce
  rw [numbers_map]
  exact congrArg some (total_eq _)

theorem along_product (n : Nat) (x : List Nat → K) :
    along .product n (fun p => some (x p)) = fun p => some (((List.range n).map (fun i => x (i :: p))).prod) := by
  funext p
  unfold along reduce
  rw [numbers_map]
  exact congrArg some (times_eq _)

theorem along_mean [IsStrictOrderedRing K] (n : Nat) (hn : 0 < n) (x : List Nat → K) :
    along .mean n (fun p => some (x p)) = fun p => some (((List.range n).map (fun i => x (i :: p))).sum / (n : K)) := by
  funext p
  unfold along reduce
  rw [numbers_map]
  change Pool.average _ = _
  unfold Pool.average
  rw [if_neg (fun h => by have := congrArg List.length h; rw [List.length_map, List.length_range, List.length_nil] at this; omega), total_eq,
    List.length_map, List.length_range]

theorem range_ne {n : Nat} (hn : 0 < n) {f : Nat → K} : (List.range n).map f ≠ [] := fun h => by
  have := congrArg List.length h
  rw [List.length_map, List.length_range, List.length_nil] at this
  omega

theorem along_max (n : Nat) (hn : 0 < n) (x : List Nat → K) :
    ∃ y : List Nat → K, along .max n (fun p => some (x p)) = (fun p => some (y p)) ∧ ∀ p, Greatest ((List.range n).map (fun i => x (i :: p))) (y p) := by
  have h : ∀ p, ∃ v, highest ((List.range n).map (fun i => x (i :: p))) = some v ∧ Greatest ((List.range n).map (fun i => x (i :: p))) v :=
    fun p => highest_greatest _ (range_ne hn)
  refine ⟨fun p => (h p).choose, ?_, fun p => (h p).choose_spec.2⟩
  funext p
  unfold along reduce
  rw [numbers_map]
  exact (h p).choose_spec.1

theorem sum_flatMap {ι : Type} (l : List ι) (f : ι → List K) : (l.flatMap f).sum = (l.map (fun i => (f i).sum)).sum := by
  induction l with
  | nil => rfl
  | cons i l ih => rw [List.flatMap_cons, List.sum_append, ih, List.map_cons, List.sum_cons]

theorem prod_flatMap {ι : Type} (l : List ι) (f : ι → List K) : (l.flatMap f).prod = (l.map (fun i => (f i).prod)).prod := by
  induction l with
  | nil => rfl
  | cons i l ih => rw [List.flatMap_cons, List.prod_append, ih, List.map_cons, List.prod_cons]

theorem places_map {β : Type} (n : Nat) (axes : List Nat) (f : List Nat → β) :
    (places (n :: axes)).map f = (places axes).flatMap (fun p => (List.range n).map (fun i => f (i :: p))) := by
  rw [places, List.map_flatMap]
  congr 1
  funext p
  rw [List.map_map]
  rfl

theorem global_sum (axes : List Nat) (x : List Nat → K) (c : Nat) :
    global .sum axes (fun p => some (x p)) c = some (((places axes).map (fun p => x (p ++ [c]))).sum) := by
  induction axes generalizing x with
  | nil => rw [global, places, List.map_singleton, List.sum_singleton]; rfl
  | cons n axes ih =>
    rw [global, along_sum, ih, places_map, sum_flatMap]
    rfl

theorem global_product (axes : List Nat) (x : List Nat → K) (c : Nat) :
    global .product axes (fun p => some (x p)) c = some (((places axes).map (fun p => x (p ++ [c]))).prod) := by
  induction axes generalizing x with
  | nil => rw [global, places, List.map_singleton, List.prod_singleton]; rfl
  | cons n axes ih =>
    rw [global, along_product, ih, places_map, prod_flatMap]
    rfl

theorem places_length (axes : List Nat) : (places axes).length = count axes := by
  induction axes with
  | nil => rfl
  | cons n axes ih =>
    rw [places, flatMap_length _ _ n (fun _ => by rw [List.length_map, List.length_range]), ih, Nat.mul_comm]
    rfl

theorem count_pos (axes : List Nat) (h : ∀ n ∈ axes, 0 < n) : 0 < count axes := by
  induction axes with
  | nil => exact Nat.one_pos
  | cons n axes ih => exact Nat.mul_pos (h n List.mem_cons_self) (ih fun m hm => h m (List.mem_cons_of_mem _ hm))

theorem sum_div {ι : Type} (l : List ι) (f : ι → K) (d : K) : (l.map (fun i => f i / d)).sum = (l.map f).sum / d := by
  induction l with
  | nil => rw [List.map_nil, List.map_nil, List.sum_nil, zero_div]
  | cons i l ih => rw [List.map_cons, List.map_cons, List.sum_cons, List.sum_cons, ih, add_div]

theorem global_mean [IsStrictOrderedRing K] (axes : List Nat) (h : ∀ n ∈ axes, 0 < n) (x : List Nat → K) (c : Nat) :
    ∃ m, global .mean axes (fun p => some (x p)) c = some m ∧ m * (count axes : K) = ((places axes).map (fun p => x (p ++ [c]))).sum := by
  induction axes generalizing x with
  | nil => exact ⟨x [c], rfl, by rw [places, List.map_singleton, List.sum_singleton]; simp [count]⟩
  | cons n axes ih =>
    have hn := h n List.mem_cons_self
    obtain ⟨m, h1, h2⟩ := ih (fun m hm => h m (List.mem_cons_of_mem _ hm)) (fun p => ((List.range n).map (fun i => x (i :: p))).sum / (n : K))
    refine ⟨m, by rw [global, along_mean n hn]; exact h1, ?_⟩
    rw [places_map, sum_flatMap]
    have hn' : (n : K) ≠ 0 := Nat.cast_ne_zero.2 (by omega)
    rw [sum_div, eq_div_iff hn'] at h2
    rw [show count (n :: axes) = n * count axes from rfl, Nat.cast_mul, mul_comm (n : K), ← mul_assoc]
    exact h2

theorem global_max (axes : List Nat) (h : ∀ n ∈ axes, 0 < n) (x : List Nat → K) (c : Nat) :
    ∃ m, global .max axes (fun p => some (x p)) c = some m ∧ Greatest ((places axes).map (fun p => x (p ++ [c]))) m := by
  induction axes generalizing x with
  | nil => exact ⟨x [c], rfl, List.mem_cons_self, fun u hu => by rw [List.mem_singleton.1 hu]; exact le_refl _⟩
  | cons n axes ih =>
    obtain ⟨y, e, hy⟩ := along_max n (h n List.mem_cons_self) x
    obtain ⟨m, h1, h2, h3⟩ := ih (fun m hm => h m (List.mem_cons_of_mem _ hm)) y
    refine ⟨m, by rw [global, e]; exact h1, ?_⟩
    rw [places_map]
    obtain ⟨p, hp, rfl⟩ := List.mem_map.1 h2
    refine ⟨List.mem_flatMap.2 ⟨p, hp, (hy (p ++ [c])).1⟩, fun u hu => ?_⟩
    obtain ⟨q, hq, hu⟩ := List.mem_flatMap.1 hu
    exact le_trans ((hy (q ++ [c])).2 u hu) (h3 _ (List.mem_map.2 ⟨q, hq, rfl⟩))

end

theorem mem_places (axes p : List Nat) : p ∈ places axes ↔ Inside axes p := by
  induction axes generalizing p with
  | nil => cases p <;> simp [places, Inside]
  | cons n axes ih =>
    cases p with
    | nil => simp [places, Inside]
    | cons i p => simp [places, Inside, ih, and_comm]

theorem nodup_places (axes : List Nat) : (places axes).Nodup := by
  induction axes with
  | nil => simp [places]
  | cons n axes ih =>
    rw [places, List.nodup_flatMap]
    refine ⟨fun p _ => List.Nodup.map (fun a b h => (List.cons.inj h).1) List.nodup_range, ?_⟩
    refine ih.imp fun {p q} hpq => ?_
    intro u hu hv
    obtain ⟨i, _, rfl⟩ := List.mem_map.1 hu
    obtain ⟨j, _, h⟩ := List.mem_map.1 hv
    exact hpq (List.cons.inj h).2.symm

theorem indices_length (axes : List Nat) : (indices axes).length = count axes := by
  induction axes with
  | nil => rfl
  | cons n axes ih =>
    rw [indices, flatMap_length _ _ (count axes) (fun _ => by rw [List.length_map, ih]), List.length_range]
    rfl

theorem flatMap_get {β : Type} (n k : Nat) (f : Nat → List β) (hf : ∀ i, (f i).length = k) (i j : Nat) (hi : i < n) (hj : j < k) :
    ((List.range n).flatMap f)[i * k + j]? = (f i)[j]? := by
  induction n with
  | zero => omega
  | succ n ih =>
    have hl : ((List.range n).flatMap f).length = n * k := by
      rw [flatMap_length _ _ k hf, List.length_range]
    rw [List.range_succ, List.flatMap_append, List.flatMap_singleton]
    by_cases h : i < n
    · rw [List.getElem?_append_left, ih h]
      rw [hl]
      calc i * k + j < i * k + k := by omega
        _ = (i + 1) * k := by rw [Nat.add_mul, Nat.one_mul]
        _ ≤ n * k := Nat.mul_le_mul_right _ h
    · have : i = n := by omega
      rw [this, List.getElem?_append_right (by rw [hl]; omega), hl, Nat.add_sub_cancel_left]

theorem rank_lt (axes p : List Nat) (h : Inside axes p) : rank axes p < count axes := by
  induction axes generalizing p with
  | nil => cases p with | nil => exact Nat.one_pos | cons => exact h.elim
  | cons n axes ih =>
    cases p with
    | nil => exact h.elim
    | cons i p =>
      have := ih p h.2
      change i * count axes + rank axes p < n * count axes
      calc i * count axes + rank axes p < i * count axes + count axes := by omega
        _ = (i + 1) * count axes := by rw [Nat.add_mul, Nat.one_mul]
        _ ≤ n * count axes := Nat.mul_le_mul_right _ h.1

theorem indices_get (axes p : List Nat) (h : Inside axes p) : (indices axes)[rank axes p]? = some p := by
  induction axes generalizing p with
  | nil => cases p with | nil => rfl | cons => exact h.elim
  | cons n axes ih =>
    cases p with
    | nil => exact h.elim
    | cons i p =>
      rw [indices, rank, flatMap_get n (count axes) _ (fun i => by rw [List.length_map, indices_length]) i _ h.1 (rank_lt axes p h.2), List.getElem?_map,
        ih p h.2]
      rfl

/-! ### Local pooling -/

theorem mem_entries (p : Padding) (a : Axis) (i j : Nat) : j ∈ a.entries p i ↔ Covers a.window a.stride (a.before p) a.size i j := by
  unfold Axis.entries Covers
  rw [List.mem_filter, List.mem_range]
  simp

theorem nodup_entries (p : Padding) (a : Axis) (i : Nat) : (a.entries p i).Nodup := List.nodup_range.filter _

/-- The last window begins before the end. -/
theorem outputs_same (a : Axis) (hs : 0 < a.stride) (hn : 0 < a.size) : (a.outputs .same - 1) * a.stride < a.size := by
  unfold Axis.outputs
  dsimp only
  have h1 : (a.size + (a.stride - 1)) / a.stride * a.stride ≤ a.size + (a.stride - 1) := Nat.div_mul_le_self _ _
  rw [Nat.sub_mul, Nat.one_mul]
  omega

theorem outputs_same_ge (a : Axis) (hs : 0 < a.stride) : a.size ≤ a.outputs .same * a.stride := by
  unfold Axis.outputs
  dsimp only
  have := Nat.lt_div_mul_add (a := a.size + (a.stride - 1)) hs
  omega

theorem before_same (a : Axis) : a.before .same = ((a.outputs .same - 1) * a.stride + a.window - a.size) / 2 := rfl

theorem exists_same (a : Axis) (hw : 0 < a.window) (hs : 0 < a.stride) (i : Nat) (hi : i < a.outputs .same) :
    ∃ j, Covers a.window a.stride (a.before .same) a.size i j := by
  have hn : 0 < a.size := by
    rcases Nat.eq_zero_or_pos a.size with h | h
    · have : a.outputs .same = 0 := by
        unfold Axis.outputs
        dsimp only
        rw [h]
        exact Nat.div_eq_of_lt (by omega)
      omega
    · exact h
  have h1 := outputs_same a hs hn
  have h2 : i * a.stride ≤ (a.outputs .same - 1) * a.stride := Nat.mul_le_mul_right _ (by omega)
  have h3 := before_same a
  by_cases h : i * a.stride ≤ a.before .same
  · exact ⟨0, hn, by omega, by omega⟩
  · exact ⟨i * a.stride - a.before .same, by omega, by omega, by omega⟩

theorem covered_same (a : Axis) (hs : 0 < a.stride) (hw : a.stride ≤ a.window) (j : Nat) (hj : j < a.size) :
    ∃ i < a.outputs .same, Covers a.window a.stride (a.before .same) a.size i j := by
  have h1 := outputs_same a hs (by omega)
  have h2 := outputs_same_ge a hs
  have h3 := before_same a
  have hp : 0 < a.outputs .same := by
    rcases Nat.eq_zero_or_pos (a.outputs .same) with h | h
    · rw [h] at h2; omega
    · exact h
  by_cases h : (j + a.before .same) / a.stride < a.outputs .same
  · refine ⟨_, h, hj, Nat.div_mul_le_self _ _, ?_⟩
    have := Nat.lt_div_mul_add (a := j + a.before .same) hs
    omega
  · have h5 : a.outputs .same * a.stride = (a.outputs .same - 1) * a.stride + a.stride := by
      rw [Nat.sub_mul, Nat.one_mul, Nat.sub_add_cancel]
      exact Nat.le_mul_of_pos_left _ hp
    refine ⟨a.outputs .same - 1, by omega, hj, ?_, by omega⟩
    have h4 : a.outputs .same * a.stride ≤ j + a.before .same := (Nat.le_div_iff_mul_le hs).1 (by omega)
    rw [Nat.sub_mul, Nat.one_mul]
    omega

theorem covers_valid (a : Axis) (hs : 0 < a.stride) (i : Nat) (hi : i < a.outputs .valid) (j : Nat) :
    Covers a.window a.stride (a.before .valid) a.size i j ↔ i * a.stride ≤ j ∧ j < i * a.stride + a.window := by
  have h0 : a.before .valid = 0 := rfl
  have h1 : (i + 1) * a.stride ≤ a.size + 1 - a.window + (a.stride - 1) := by
    unfold Axis.outputs at hi
    exact (Nat.le_div_iff_mul_le hs).1 hi
  rw [Nat.add_mul, Nat.one_mul] at h1
  unfold Covers
  rw [h0]
  omega

section
variable {K : Type} [Field K] [LinearOrder K]

theorem window_reduces [IsStrictOrderedRing K] (r : Local) (hr : r ≠ .unknown) (l : List K) (h : l ≠ []) : ∃ v, window r l = some v ∧ Reduces r l v := by
  cases r with
  | average => exact average_mean l h
  | max => exact highest_greatest l h
  | unknown => exact absurd rfl hr

theorem sum_bounds [IsStrictOrderedRing K] (l : List K) (lo hi : K) (h : ∀ u ∈ l, lo ≤ u ∧ u ≤ hi) : lo * (l.length : K) ≤ l.sum ∧ l.sum ≤ hi * (l.length : K) := by
  induction l with
  | nil => simp
  | cons u l ih =>
    obtain ⟨a, b⟩ := ih fun v hv => h v (List.mem_cons_of_mem _ hv)
    obtain ⟨c, d⟩ := h u List.mem_cons_self
    rw [List.sum_cons, List.length_cons, Nat.cast_add, Nat.cast_one, mul_add, mul_add, mul_one, mul_one]
    exact ⟨by linarith, by linarith⟩

theorem reduces_bounds [IsStrictOrderedRing K] (r : Local) (l : List K) (v lo hi : K) (hv : Reduces r l v) (h : ∀ u ∈ l, lo ≤ u ∧ u ≤ hi) : lo ≤ v ∧ v ≤ hi := by
  cases r with
  | max => exact h v hv.1
  | average =>
    obtain ⟨a, b⟩ := sum_bounds l lo hi h
    obtain ⟨h0, e⟩ := hv
    have hp : (0 : K) < (l.length : K) := Nat.cast_pos.2 (List.length_pos_iff.2 h0)
    rw [← e] at a b
    exact ⟨le_of_mul_le_mul_right a hp, le_of_mul_le_mul_right b hp⟩
  | unknown => exact hv.elim

end

end Verif.Pool
