import Verif.Norm.Spec
import Mathlib.Algebra.BigOperators.Group.List.Basic
import Mathlib.Tactic.Ring
import Mathlib.Tactic.Linarith
import Mathlib.Tactic.FieldSimp

/-!
# Places, indices and groups of entries
-/

namespace Verif.Norm

theorem size_eq (s : List Nat) : size s = count s := by
  induction s with
  | nil => rfl
  | cons n s ih => show n * size s = n * count s; rw [ih]

theorem count_cons (n : Nat) (s : List Nat) : count (n :: s) = n * count s := rfl

theorem mem_indices {n : Nat} {s a : List Nat} : a ∈ indices (n :: s) ↔ ∃ i r, i < n ∧ r ∈ indices s ∧ a = i :: r := by
  rw [show indices (n :: s) = (List.range n).flatMap (fun i => (indices s).map (i :: ·)) from rfl, List.mem_flatMap]
  constructor
  · rintro ⟨i, hi, ha⟩
    obtain ⟨r, hr, e⟩ := List.mem_map.1 ha
    exact ⟨i, r, List.mem_range.1 hi, hr, e.symm⟩
  · rintro ⟨i, r, hi, hr, e⟩
    exact ⟨i, List.mem_range.2 hi, List.mem_map.2 ⟨r, hr, e.symm⟩⟩

theorem length_of_mem_indices {s a : List Nat} (h : a ∈ indices s) : a.length = s.length := by
  induction s generalizing a with
  | nil => rw [List.mem_singleton.1 h]
  | cons n s ih =>
    obtain ⟨i, r, _, hr, e⟩ := mem_indices.1 h
    rw [e, List.length_cons, List.length_cons, ih hr]

theorem place_lt {s a : List Nat} (h : a ∈ indices s) : place s a < count s := by
  induction s generalizing a with
  | nil => rw [List.mem_singleton.1 h]; decide
  | cons n s ih =>
    obtain ⟨i, r, hi, hr, e⟩ := mem_indices.1 h
    subst e
    show i * count s + place s r < n * count s
    have h1 := ih hr
    have h2 : (i + 1) * count s ≤ n * count s := Nat.mul_le_mul_right _ hi
    rw [Nat.add_mul, Nat.one_mul] at h2
    omega

theorem unravel_place {s a : List Nat} (h : a ∈ indices s) : unravel s (place s a) = a := by
  induction s generalizing a with
  | nil => rw [List.mem_singleton.1 h]; rfl
  | cons n s ih =>
    obtain ⟨i, r, hi, hr, e⟩ := mem_indices.1 h
    subst e
    show (i * count s + place s r) / size s :: unravel s ((i * count s + place s r) % size s) = i :: r
    have h1 := place_lt hr
    have hpos : 0 < count s := Nat.lt_of_le_of_lt (Nat.zero_le _) h1
    rw [size_eq, Nat.mul_comm, Nat.mul_add_div hpos, Nat.div_eq_of_lt h1, Nat.mul_add_mod, Nat.mod_eq_of_lt h1, ih hr, Nat.add_zero]

theorem range_mul (n m : Nat) : List.range (n * m) = (List.range n).flatMap (fun i => (List.range m).map (fun j => i * m + j)) := by
  induction n with
  | zero => rw [Nat.zero_mul]; rfl
  | succ n ih =>
    rw [Nat.add_mul, Nat.one_mul, List.range_add, ih, List.range_succ, List.flatMap_append]
    simp

theorem places (s : List Nat) : (indices s).map (place s) = List.range (count s) := by
  induction s with
  | nil => rfl
  | cons n s ih =>
    rw [count_cons, range_mul, ← ih]
    rw [show indices (n :: s) = (List.range n).flatMap (fun i => (indices s).map (i :: ·)) from rfl, List.map_flatMap]
    congr 1
    funext i
    rw [List.map_map, List.map_map]
    rfl

theorem key_eq_iff {axes s a b : List Nat} (ha : a ∈ indices s) (hb : b ∈ indices s) :
    key axes s (place s b) = key axes s (place s a) ↔ Along axes s a b := by
  unfold key
  rw [unravel_place ha, unravel_place hb]
  have la := length_of_mem_indices ha
  have lb := length_of_mem_indices hb
  constructor
  · intro h k hk hax
    have h1 := congrArg (fun l => l[k]?) h
    simp only [List.getElem?_mapIdx] at h1
    rw [List.getElem?_eq_getElem (by omega), List.getElem?_eq_getElem (by omega)] at h1 ⊢
    simp only [Option.map_some, List.contains_iff_mem, hax, if_false, Option.some.injEq] at h1
    rw [h1]
  · intro h
    apply List.ext_getElem?
    intro k
    rw [List.getElem?_mapIdx, List.getElem?_mapIdx]
    by_cases hk : k < s.length
    · by_cases hax : k ∈ axes
      · rw [List.getElem?_eq_getElem (by omega), List.getElem?_eq_getElem (by omega)]
        simp [hax]
      · rw [h k hk hax]
    · rw [List.getElem?_eq_none (by omega), List.getElem?_eq_none (by omega)]

theorem members_eq {axes s a : List Nat} (ha : a ∈ indices s) : members axes s (place s a) = (group axes s a).map (place s) := by
  unfold members group
  rw [size_eq, ← places, List.filter_map]
  congr 1
  apply List.filter_congr
  intro b hb
  simp only [Function.comp]
  exact decide_eq_decide.2 (key_eq_iff ha hb)

theorem along_refl (axes s a : List Nat) : Along axes s a a := fun _ _ _ => rfl

theorem self_mem_group {axes s a : List Nat} (ha : a ∈ indices s) : a ∈ group axes s a :=
  List.mem_filter.2 ⟨ha, decide_eq_true (along_refl _ _ _)⟩

theorem mem_group {axes s a b : List Nat} (h : b ∈ group axes s a) : b ∈ indices s ∧ Along axes s a b := by
  obtain ⟨h1, h2⟩ := List.mem_filter.1 h
  exact ⟨h1, of_decide_eq_true h2⟩

theorem group_eq {axes s a b : List Nat} (h : Along axes s a b) : group axes s b = group axes s a := by
  unfold group
  apply List.filter_congr
  intro c _
  apply decide_eq_decide.2
  constructor
  · intro h' k hk hax; rw [h k hk hax, h' k hk hax]
  · intro h' k hk hax; rw [← h k hk hax, h' k hk hax]

section

variable {K : Type} [Field K]

theorem values_eq {axes s a : List Nat} (ha : a ∈ indices s) (rows : List (List K)) :
    values rows (members axes s (place s a)) = cells s rows (group axes s a) := by
  unfold values cells
  rw [members_eq ha]
  congr 1
  funext r
  rw [List.map_map]
  rfl

theorem means_at {axes s a : List Nat} (ha : a ∈ indices s) (rows : List (List K)) :
    (means axes s rows).getD (place s a) 0 = avg (cells s rows (group axes s a)) := by
  unfold means
  rw [List.getD_eq_getElem?_getD, List.getElem?_map, List.getElem?_range (by rw [size_eq]; exact place_lt ha)]
  show avg _ = _
  rw [values_eq ha]

theorem variances_at {axes s a : List Nat} (ha : a ∈ indices s) (rows : List (List K)) :
    (variances axes s rows).getD (place s a) 0 =
      avg ((cells s rows (group axes s a)).map (fun x => (x - avg (cells s rows (group axes s a))) ^ 2)) := by
  unfold variances
  rw [List.getD_eq_getElem?_getD, List.getElem?_map, List.getElem?_range (by rw [size_eq]; exact place_lt ha)]
  show avg _ = _
  rw [values_eq ha, means_at ha]

theorem cells_ne_nil {axes s a : List Nat} {rows : List (List K)} (ha : a ∈ indices s) (h : rows ≠ []) : cells s rows (group axes s a) ≠ [] := by
  cases rows with
  | nil => exact absurd rfl h
  | cons r rows =>
    have := self_mem_group (axes := axes) ha
    intro hc
    unfold cells at hc
    rw [List.flatMap_cons] at hc
    have he := List.map_eq_nil_iff.1 (List.append_eq_nil_iff.1 hc).1
    rw [he] at this
    cases this

theorem avg_mean [CharZero K] {l : List K} (h : l ≠ []) : Mean l (avg l) := by
  refine ⟨h, ?_⟩
  unfold avg
  have : (l.length : K) ≠ 0 := Nat.cast_ne_zero.2 (fun e => h (List.length_eq_zero_iff.1 e))
  exact div_mul_cancel₀ _ this

theorem mean_unique [CharZero K] {l : List K} {m m' : K} (h : Mean l m) (h' : Mean l m') : m = m' := by
  have : (l.length : K) ≠ 0 := Nat.cast_ne_zero.2 (fun e => h.1 (List.length_eq_zero_iff.1 e))
  exact mul_right_cancel₀ this (h.2.trans h'.2.symm)

theorem avg_of_mean [CharZero K] {l : List K} {m : K} (h : Mean l m) : avg l = m := mean_unique (avg_mean h.1) h

theorem sum_sub (l : List K) (m : K) : (l.map (fun x => x - m)).sum = l.sum - m * l.length := by
  induction l with
  | nil => simp
  | cons x l ih =>
    rw [List.map_cons, List.sum_cons, ih, List.sum_cons, List.length_cons]
    push_cast
    ring

theorem sum_scale (l : List K) (r : K) : (l.map (fun x => x * r)).sum = l.sum * r := by
  induction l with
  | nil => simp
  | cons x l ih => rw [List.map_cons, List.sum_cons, ih, List.sum_cons, add_mul]

theorem sum_const (l : List K) (c : K) : (l.map (fun _ => c)).sum = l.length * c := by
  induction l with
  | nil => simp
  | cons x l ih =>
    rw [List.map_cons, List.sum_cons, ih, List.length_cons]
    push_cast
    ring

end

end Verif.Norm
