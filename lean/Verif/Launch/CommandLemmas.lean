import Verif.Launch.CommandSpec

/-! # Lemmas on the command line program -/

namespace Verif.Launch

theorem split_plain (t : Text) (h : ',' ∉ t) : split t = [t] := by
  induction t with
  | nil => rfl
  | cons c l ih =>
    rw [List.mem_cons, not_or] at h
    rw [split, if_neg (fun e => h.1 e.symm), ih h.2]

theorem split_cons (t r : Text) (h : ',' ∉ t) : split (t ++ ',' :: r) = t :: split r := by
  induction t with
  | nil => rfl
  | cons c l ih =>
    rw [List.mem_cons, not_or] at h
    rw [List.cons_append, split, if_neg (fun e => h.1 e.symm), ih h.2]

theorem split_join (ts : List Text) (h0 : ts ≠ []) (h : ∀ t ∈ ts, ',' ∉ t) : split (join ts) = ts := by
  induction ts with
  | nil => exact (h0 rfl).elim
  | cons t ts ih =>
    cases ts with
    | nil => exact split_plain t (h t (List.mem_cons_self ..))
    | cons u us =>
      rw [join, split_cons _ _ (h t (List.mem_cons_self ..)), ih (by simp) (fun x hx => h x (List.mem_cons_of_mem _ hx))]
      simp

theorem ints_map (int : Text → Option Int) (ts : List Text) (zs : List Int) (h : ts.map int = zs.map some) : ints int ts = .ok zs := by
  induction ts generalizing zs with
  | nil =>
    cases zs with
    | nil => rfl
    | cons z zs => cases h
  | cons t ts ih =>
    cases zs with
    | nil => cases h
    | cons z zs =>
      simp only [List.map_cons] at h
      injection h with h1 h2
      rw [ints, h1]
      simp only
      rw [ih zs h2]

section
variable {R : Type}

theorem append_eq (k : Nat) (x : R) (t : List (List R)) (h : k < t.length) : append k x t = .ok (t.modify k (· ++ [x])) := by
  induction t generalizing k with
  | nil => simp at h
  | cons l ls ih =>
    cases k with
    | zero => rfl
    | succ k =>
      rw [append, ih k (by simpa using h)]
      rfl

theorem recordRun_eq (k : Nat) (xs : List R) (t : List (List R)) (h : k + xs.length ≤ t.length) :
    ∃ t', recordRun k xs t = .ok t' ∧ t'.length = t.length ∧
      ∀ j, t'[j]? = (t[j]?).map (fun l => if k ≤ j then l ++ (xs[j - k]?).toList else l) := by
  induction xs generalizing k t with
  | nil =>
    refine ⟨t, rfl, rfl, fun j => ?_⟩
    cases t[j]? <;> simp
  | cons x xs ih =>
    have hk : k < t.length := by simp at h; omega
    obtain ⟨t', h1, h2, h3⟩ := ih (k + 1) (t.modify k (· ++ [x])) (by simp at h ⊢; omega)
    refine ⟨t', ?_, by rw [h2, List.length_modify], fun j => ?_⟩
    · rw [recordRun, append_eq k x t hk]
      exact h1
    · rw [h3 j, List.getElem?_modify]
      simp only [Option.map_eq_map, Option.map_map]
      congr 1
      funext l
      simp only [Function.comp]
      rcases Nat.lt_trichotomy j k with hj | hj | hj
      · rw [if_neg (show ¬ k + 1 ≤ j by omega), if_neg (show ¬ k = j by omega), if_neg (show ¬ k ≤ j by omega)]
      · subst hj
        rw [if_neg (show ¬ j + 1 ≤ j by omega), if_pos rfl, if_pos (Nat.le_refl _)]
        simp
      · rw [if_pos (show k + 1 ≤ j by omega), if_neg (show ¬ k = j by omega), if_pos (show k ≤ j by omega)]
        obtain ⟨i, rfl⟩ : ∃ i, j = k + 1 + i := ⟨j - (k + 1), by omega⟩
        rw [show k + 1 + i - (k + 1) = i by omega, show k + 1 + i - k = i + 1 by omega, List.getElem?_cons_succ]

theorem recordAll_eq (rs : List (List R)) (t : List (List R)) (h : ∀ r ∈ rs, r.length ≤ t.length) :
    ∃ t', recordAll rs t = .ok t' ∧ t'.length = t.length ∧ ∀ j : Nat, t'[j]? = (t[j]?).map (fun l => l ++ rs.filterMap (fun r => r[j]?)) := by
  induction rs generalizing t with
  | nil =>
    refine ⟨t, rfl, rfl, fun j => ?_⟩
    cases t[j]? <;> simp
  | cons r rs ih =>
    obtain ⟨t1, a1, a2, a3⟩ := recordRun_eq 0 r t (by simpa using h r (List.mem_cons_self ..))
    obtain ⟨t2, b1, b2, b3⟩ := ih t1 (fun x hx => by rw [a2]; exact h x (List.mem_cons_of_mem _ hx))
    refine ⟨t2, ?_, by rw [b2, a2], fun j => ?_⟩
    · rw [recordAll, a1]
      exact b1
    · rw [b3 j, a3 j, Option.map_map]
      congr 1
      funext l
      simp only [Function.comp, Nat.zero_le, if_true, Nat.sub_zero]
      rw [List.filterMap_cons]
      cases r[j]? <;> simp

theorem append_beyond (k : Nat) (x : R) (t : List (List R)) (h : t.length ≤ k) : append k x t = .error .index := by
  induction t generalizing k with
  | nil => cases k <;> rfl
  | cons l ls ih =>
    cases k with
    | zero => simp at h
    | succ k => rw [append, ih k (by simpa using h)]

theorem recordRun_beyond (k : Nat) (xs : List R) (t : List (List R)) (h0 : k ≤ t.length) (h : t.length < k + xs.length) :
    recordRun k xs t = .error .index := by
  induction xs generalizing k t with
  | nil => simp at h; omega
  | cons x xs ih =>
    rw [List.length_cons] at h
    by_cases hk : k < t.length
    · rw [recordRun, append_eq k x t hk]
      exact ih (k + 1) _ (by rw [List.length_modify]; omega) (by rw [List.length_modify]; omega)
    · rw [recordRun, append_beyond k x t (by omega)]

theorem recordAll_beyond (rs : List (List R)) (t : List (List R)) (h : ∃ r ∈ rs, t.length < r.length) : recordAll rs t = .error .index := by
  induction rs generalizing t with
  | nil => obtain ⟨_, h, _⟩ := h; cases h
  | cons r rs ih =>
    by_cases hr : t.length < r.length
    · rw [recordAll, recordRun_beyond 0 r t (Nat.zero_le _) (by omega)]
    · obtain ⟨t', h1, h2, _⟩ := recordRun_eq 0 r t (by omega)
      rw [recordAll, h1]
      refine ih t' ?_
      obtain ⟨x, hx, hl⟩ := h
      cases hx with
      | head => exact absurd hl hr
      | tail _ hx => exact ⟨x, hx, by rw [h2]; exact hl⟩

end

theorem mem_join (ts : List Text) (h : 2 ≤ ts.length) : ',' ∈ join ts := by
  match ts, h with
  | t :: u :: us, _ => simp [join]

theorem join_split (ts : List Text) (h : 2 ≤ ts.length) (hc : ∀ t ∈ ts, ',' ∉ t) : split (join ts) = ts :=
  split_join ts (fun e => by rw [e] at h; simp at h) hc

theorem conf_given {t : Option Text} {c : Option Conf} (h : Given t c) : conf t = .ok c := by
  cases h with
  | absent => rfl
  | directory d h => simp [conf, h]
  | named d f h1 h2 => simp [conf, split_cons _ _ h1, split_plain _ h2]

theorem host_given {t : Option Text} {c : Each Text} (h : Hosts t c) : hostArg t = c := by
  cases h with
  | absent => rfl
  | one h h1 => simp [hostArg, h1]
  | many hs h1 h2 =>
    have := mem_join hs h1
    simp [hostArg, this, join_split hs h1 h2]

theorem port_given {int : Text → Option Int} {t : Option Text} {c : Each Int} (h : Ports int t c) : portArg int t = .ok c := by
  cases h with
  | absent => rfl
  | one t p h1 h2 => simp [portArg, h1, h2]
  | many ts ps h1 h2 h3 =>
    have := mem_join ts h1
    simp [portArg, this, join_split ts h1 h2, ints_map int ts ps h3]

theorem checkPath_some (l : Line) (t : Text) (h : l.path = some t) :
    checkPath l = if '.' ∉ (t.reverse.takeWhile (· ≠ '/')).reverse.dropWhile (· = '.') ∧ l.episodes ≠ none then .ok () else .error .assertion := by
  unfold checkPath plain
  rw [h]
  simp only [List.contains_iff_mem, decide_not, Bool.not_eq_true', decide_eq_false_iff_not, Decidable.not_not]
  by_cases h1 : '.' ∈ (t.reverse.takeWhile (· ≠ '/')).reverse.dropWhile (· = '.')
  · simp only [decide_not] at h1
    simp [h1]
  · simp only [decide_not] at h1
    cases h2 : l.episodes <;> simp [h1]

theorem ints_error (int : Text → Option Int) (ts : List Text) (t : Text) (ht : t ∈ ts) (hi : int t = none) : ints int ts = .error .value := by
  induction ts with
  | nil => cases ht
  | cons x xs ih =>
    unfold ints
    cases hx : int x with
    | none => rfl
    | some z =>
      have : t ∈ xs := by
        rcases List.mem_cons.1 ht with h | h
        · rw [← h, hi] at hx; cases hx
        · exact h
      simp only
      rw [ih this]

theorem port_error (int : Text → Option Int) (ts : List Text) (hc : ∀ t ∈ ts, ',' ∉ t) (t : Text) (ht : t ∈ ts) (hi : int t = none) :
    portArg int (some (join ts)) = .error .value := by
  match ts, hc, ht with
  | [x], hc, ht =>
    have hx : ',' ∉ x := hc x List.mem_cons_self
    rw [List.mem_singleton.1 ht] at hi
    simp [portArg, join, hx, hi]
  | x :: y :: l, hc, ht =>
    have h2 : 2 ≤ (x :: y :: l).length := by simp
    have := mem_join _ h2
    simp only [portArg, List.contains_iff_mem, this, if_true, join_split _ h2 hc, ints_error int _ t ht hi]

theorem conf_error (ts : List Text) (h : 3 ≤ ts.length) (hc : ∀ t ∈ ts, ',' ∉ t) : conf (some (join ts)) = .error .value := by
  have h2 : 2 ≤ ts.length := by omega
  have hm := mem_join ts h2
  simp only [conf, List.contains_iff_mem, hm, if_true, join_split ts h2 hc]
  match ts, h with
  | _ :: _ :: _ :: _, _ => rfl

end Verif.Launch
