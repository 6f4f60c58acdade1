import Verif.Memory.Model

/-! Helper lemmas: the circular buffer refines a sliding window. -/

namespace Verif.Memory

theorem mod_ne_of_lt {cap p k : Nat} (h0 : 0 < k) (h1 : k < cap) : (p + k) % cap ≠ p % cap := by
  intro h
  have h2 := Nat.sub_mod_eq_zero_of_mod_eq h
  rw [Nat.add_sub_cancel_left, Nat.mod_eq_of_lt h1] at h2
  omega

/-- `buf` read from slot `p` on (circularly) yields `L`. -/
def Agree {β : Type} (buf : List β) (cap p : Nat) (L : List β) : Prop :=
  ∀ i, i < L.length → buf[(p + i) % cap]? = L[i]?

theorem Agree.tail {β : Type} {buf : List β} {cap p : Nat} {x : β} {L : List β}
    (h : Agree buf cap p (x :: L)) : Agree buf cap (p + 1) L := by
  intro i hi
  have := h (i + 1) (by simp; omega)
  rw [show p + 1 + i = p + (i + 1) by omega, this]
  simp

theorem Agree.head {β : Type} {buf : List β} {cap p : Nat} {x : β} {L : List β}
    (h : Agree buf cap p (x :: L)) : buf[p % cap]? = some x := by
  have := h 0 (by simp)
  simpa using this

theorem Agree.left {β : Type} {buf : List β} {cap p : Nat} {L M : List β}
    (h : Agree buf cap p (L ++ M)) : Agree buf cap p L := by
  intro i hi
  rw [h i (by simp; omega), List.getElem?_append_left hi]

theorem Agree.drop {β : Type} {buf : List β} {cap p : Nat} {L : List β} (n : Nat)
    (h : Agree buf cap p L) : Agree buf cap (p + n) (L.drop n) := by
  intro i hi
  simp at hi
  rw [show p + n + i = p + (n + i) by omega, h (n + i) (by omega)]
  simp

theorem slots_succ (cap p n : Nat) : slots cap p (n + 1) = p % cap :: slots cap (p + 1) n := by
  simp only [slots, rangeFrom, List.range_succ_eq_map, List.map_cons, List.map_map]
  congr 1
  apply List.map_congr_left
  intro a _
  simp [Function.comp]
  congr 1
  omega

theorem slots_zero (cap p : Nat) : slots cap p 0 = [] := by simp [slots, rangeFrom]

theorem slots_length (cap p n : Nat) : (slots cap p n).length = n := by simp [slots, rangeFrom]

theorem slots_append (cap p a b : Nat) : slots cap p (a + b) = slots cap p a ++ slots cap (p + a) b := by
  induction a generalizing p with
  | zero => simp [slots_zero]
  | succ a ih =>
    rw [show a + 1 + b = (a + b) + 1 by omega, slots_succ, slots_succ, ih]
    simp [show p + 1 + a = p + (a + 1) by omega]

theorem slots_add_cap (cap p n : Nat) : slots cap (p + cap) n = slots cap p n := by
  induction n generalizing p with
  | zero => simp [slots_zero]
  | succ n ih =>
    rw [slots_succ, slots_succ, show p + cap + 1 = (p + 1) + cap by omega, ih]
    simp

theorem gather_nil {β : Type} (buf : List β) : gather buf [] = some [] := rfl

theorem gather_cons {β : Type} (buf : List β) (i : Nat) (r : List Nat) :
    gather buf (i :: r) = (buf[i]?).bind (fun x => (gather buf r).map (x :: ·)) := by
  unfold gather
  rw [List.mapM_cons]
  cases buf[i]? <;> simp
  cases (List.mapM (fun i => buf[i]?) r) <;> rfl

theorem gather_slots {β : Type} {buf : List β} {cap p : Nat} {L : List β}
    (h : Agree buf cap p L) : gather buf (slots cap p L.length) = some L := by
  induction L generalizing p with
  | nil => simp [slots_zero, gather_nil]
  | cons x L ih =>
    rw [List.length_cons, slots_succ, gather_cons, h.head, ih h.tail]
    rfl

theorem Agree.set {β : Type} {buf : List β} {cap p : Nat} {x y : β} {L : List β}
    (hlen : buf.length = cap) (hL : (x :: L).length = cap) (h : Agree buf cap p (x :: L)) :
    Agree (buf.set (p % cap) y) cap (p + 1) (L ++ [y]) := by
  have hc : 0 < cap := by simp at hL; omega
  intro i hi
  simp at hi hL
  by_cases hlt : i < L.length
  · have hne : p % cap ≠ (p + 1 + i) % cap := by
      have := mod_ne_of_lt (cap := cap) (p := p) (k := 1 + i) (by omega) (by omega)
      rw [show p + 1 + i = p + (1 + i) by omega]
      exact fun e => this e.symm
    rw [List.getElem?_set_ne hne, List.getElem?_append_left hlt]
    exact h.tail i hlt
  · have hieq : i = L.length := by omega
    have hm : (p + 1 + i) % cap = p % cap := by
      rw [show p + 1 + i = p + cap by omega, Nat.add_mod_right]
    rw [hm, hieq, List.getElem?_set_self (by rw [hlen]; exact Nat.mod_lt _ hc)]
    simp

/-- Writing `ys` at consecutive circular slots slides the window. -/
theorem scatter_slots {β : Type} {cap : Nat} (ys : List β) :
    ∀ {buf : List β} {p : Nat} {L : List β}, 0 < cap → buf.length = cap → L.length = cap →
    Agree buf cap p L →
    ∃ buf', scatter buf ((slots cap p ys.length).zip ys) = some buf' ∧ buf'.length = cap ∧
      Agree buf' cap (p + ys.length) ((L ++ ys).drop ys.length) := by
  induction ys with
  | nil =>
    intro buf p L _ hb _ h
    exact ⟨buf, by simp [slots_zero, scatter], hb, by simpa using h⟩
  | cons y ys ih =>
    intro buf p L hc hb hL h
    cases L with
    | nil => simp at hL; omega
    | cons x L =>
      have h1 := Agree.set (y := y) hb hL h
      obtain ⟨buf', e, hl, ha⟩ := ih (p := p + 1) (L := L ++ [y]) hc
        (by simpa using hb) (by simpa using hL) h1
      refine ⟨buf', ?_, hl, ?_⟩
      · rw [List.length_cons, slots_succ, List.zip_cons_cons, scatter,
          if_pos (by rw [hb]; exact Nat.mod_lt _ hc)]
        exact e
      · rw [List.length_cons, show p + (ys.length + 1) = p + 1 + ys.length by omega]
        simpa using ha

theorem rangeFrom_succ (s n : Nat) : rangeFrom s (n + 1) = s :: rangeFrom (s + 1) n := by
  simp only [rangeFrom, List.range_succ_eq_map, List.map_cons, List.map_map]
  congr 1
  apply List.map_congr_left
  intro a _
  simp [Function.comp]
  omega

theorem rangeFrom_zero' (n : Nat) : rangeFrom 0 n = List.range n := by
  simp [rangeFrom]

theorem rangeFrom_length (s n : Nat) : (rangeFrom s n).length = n := by simp [rangeFrom]

/-- Writing `u` at the consecutive positions `s, s+1, ...`. -/
theorem scatter_range {β : Type} (u : List β) :
    ∀ (l : List β) (s : Nat), s + u.length ≤ l.length →
    scatter l ((rangeFrom s u.length).zip u) = some (l.take s ++ u ++ l.drop (s + u.length)) := by
  induction u with
  | nil =>
    intro l s _
    simp [rangeFrom, scatter]
  | cons x u ih =>
    intro l s h
    simp at h
    rw [List.length_cons, rangeFrom_succ, List.zip_cons_cons, scatter, if_pos (by omega),
      ih _ _ (by simp; omega)]
    congr 1
    apply List.ext_getElem?
    intro i
    simp only [List.getElem?_append, List.getElem?_take, List.getElem?_drop, List.length_take,
      List.length_append, List.length_set, List.getElem?_set, List.length_cons, List.getElem?_cons]
    grind

/-- Slots (in age order) of the nonzero codes of a window that starts at position `p`. -/
def termSlots (cap : Nat) : Nat → List Nat → List Nat
  | _, [] => []
  | p, c :: r => if c = 0 then termSlots cap (p + 1) r else p % cap :: termSlots cap (p + 1) r

theorem termSlots_append (cap : Nat) (A B : List Nat) (p : Nat) :
    termSlots cap p (A ++ B) = termSlots cap p A ++ termSlots cap (p + A.length) B := by
  induction A generalizing p with
  | nil => simp [termSlots]
  | cons a A ih =>
    simp only [List.cons_append, termSlots, ih, List.length_cons]
    rw [show p + 1 + A.length = p + (A.length + 1) by omega]
    split <;> simp

theorem termSlots_length (cap : Nat) (A : List Nat) (p : Nat) :
    (termSlots cap p A).length = countNonzero A := by
  induction A generalizing p with
  | nil => simp [termSlots, countNonzero]
  | cons a A ih =>
    simp only [termSlots, countNonzero, List.filter_cons] at *
    by_cases h : a = 0 <;> simp [h, ih]

theorem countNonzero_append (A B : List Nat) :
    countNonzero (A ++ B) = countNonzero A + countNonzero B := by
  simp [countNonzero]

theorem countNonzero_le (A : List Nat) : countNonzero A ≤ A.length := by
  simp only [countNonzero]
  exact List.length_filter_le _ _

theorem termSlots_add_cap (cap : Nat) (A : List Nat) (p : Nat) :
    termSlots cap (p + cap) A = termSlots cap p A := by
  induction A generalizing p with
  | nil => simp [termSlots]
  | cons a A ih =>
    simp only [termSlots]
    rw [show p + cap + 1 = p + 1 + cap by omega, ih, Nat.add_mod_right]

theorem termSlots_lt {cap : Nat} (hc : 0 < cap) (A : List Nat) (p : Nat) :
    ∀ s ∈ termSlots cap p A, s < cap := by
  induction A generalizing p with
  | nil => simp [termSlots]
  | cons a A ih =>
    intro s hs
    simp only [termSlots] at hs
    split at hs
    · exact ih _ s hs
    · rcases List.mem_cons.mp hs with h | h
      · rw [h]; exact Nat.mod_lt _ hc
      · exact ih _ s h

theorem gather_termSlots {buf : List Nat} {cap p : Nat} {codes : List Nat}
    (h : Agree buf cap p codes) :
    gather buf (termSlots cap p codes) = some (codes.filter (fun t => decide (t ≠ 0))) := by
  induction codes generalizing p with
  | nil => simp [termSlots, gather_nil]
  | cons c codes ih =>
    simp only [termSlots]
    by_cases hc : c = 0
    · simp [hc, ih h.tail]
    · rw [if_neg hc, gather_cons, h.head, ih h.tail]
      simp [hc]

theorem slots_zip_filter (cap : Nat) (codes : List Nat) (p : Nat) :
    (((slots cap p codes.length).zip codes).filter (fun q => decide (0 < q.2))).map Prod.fst
      = termSlots cap p codes := by
  induction codes generalizing p with
  | nil => simp [slots_zero, termSlots]
  | cons c codes ih =>
    rw [List.length_cons, slots_succ, List.zip_cons_cons, List.filter_cons]
    by_cases hc : c = 0
    · simp [hc, termSlots]; exact ih _
    · rw [if_pos (by simp; omega)]
      simp only [termSlots, if_neg hc, List.map_cons, ih]

/-- A full window is a rotation of the buffer. -/
theorem Agree.rotation {β : Type} {buf : List β} {cap p : Nat} {L : List β} (hc : 0 < cap)
    (hb : buf.length = cap) (hL : L.length = cap) (h : Agree buf cap p L) :
    L = buf.drop (p % cap) ++ buf.take (p % cap) := by
  have hm : p % cap < cap := Nat.mod_lt _ hc
  apply List.ext_getElem?
  intro i
  by_cases hi : i < cap
  · rw [← h i (by omega), List.getElem?_append]
    simp only [List.length_drop, List.getElem?_drop, List.getElem?_take]
    rw [Nat.add_mod, Nat.mod_eq_of_lt hi]
    by_cases hlt : p % cap + i < cap
    · rw [Nat.mod_eq_of_lt hlt, if_pos (by omega)]
    · rw [if_neg (by omega), if_pos (by omega)]
      have : (p % cap + i) % cap = i - (buf.length - p % cap) := by
        rw [Nat.mod_eq_sub_mod (by omega), Nat.mod_eq_of_lt (by omega)]
        omega
      rw [this]
  · rw [List.getElem?_eq_none (by omega), List.getElem?_eq_none (by simp; omega)]

theorem Agree.countNonzero_eq {buf : List Nat} {cap p : Nat} {L : List Nat} (hc : 0 < cap)
    (hb : buf.length = cap) (hL : L.length = cap) (h : Agree buf cap p L) :
    countNonzero buf = countNonzero L := by
  rw [h.rotation hc hb hL, countNonzero_append, Nat.add_comm, ← countNonzero_append,
    List.take_append_drop]

end Verif.Memory
