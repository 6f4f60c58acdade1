import Verif.Memory.Lemmas
import Verif.Memory.Spec

/-! The queue refines the log: representation invariant and its preservation. -/

namespace Verif.Memory

variable {α : Type}

theorem markLast_append (A : List Nat) (B : List Nat) (hB : B ≠ []) :
    markLast (A ++ B) = A ++ markLast B := by
  unfold markLast
  rw [List.getLast?_append]
  cases h : B.getLast? with
  | none => simp at h; exact absurd h hB
  | some t =>
    simp only [Option.some_or]
    rw [List.dropLast_append_of_ne_nil hB]
    simp

theorem markLast_length (A : List Nat) : (markLast A).length = A.length := by
  unfold markLast
  cases h : A.getLast? with
  | none => simp at h; simp [h]
  | some t =>
    have : A ≠ [] := by intro e; simp [e] at h
    have : 0 < A.length := List.length_pos_iff.mpr this
    simp; omega

/-- Codes as stored in the `terminal` buffer: with the marker 3 at the end iff `m`. -/
def storedCodes (m : Bool) (codes : List Nat) : List Nat := if m then markLast codes else codes

theorem storedCodes_length (m : Bool) (codes : List Nat) :
    (storedCodes m codes).length = codes.length := by
  unfold storedCodes; split <;> simp [markLast_length]

/-- Representation invariant: the queue holds the window `W` (oldest first), write head marked iff `m`. -/
structure Rep (m : Bool) (q : Queue α) (W : List (Step α)) : Prop where
  capPos : 0 < q.cap
  lenW : W.length = q.cap
  lenV : q.vals.length = q.cap
  lenT : q.term.length = q.cap
  lenTi : q.ti.length = q.cap + 1
  codes : ∀ x ∈ W, x.2 ≤ 2
  vals : Agree q.vals q.cap q.bi (W.map Prod.fst)
  term : Agree q.term q.cap q.bi (storedCodes m (W.map Prod.snd))
  tiEq : q.ti.take (q.ec + 1).toNat = termSlots q.cap q.bi (W.map Prod.snd)
  ecEq : q.ec + 1 = (countNonzero (W.map Prod.snd) : Int)

theorem lastIndex_eq {q : Queue α} (hc : 0 < q.cap) :
    q.lastIndex = (q.bi + (q.cap - 1)) % q.cap := by
  unfold Queue.lastIndex
  have h : ((q.bi : Int) - 1) % (q.cap : Int) = (((q.bi + (q.cap - 1)) % q.cap : Nat) : Int) := by
    rw [Int.natCast_emod, show ((q.bi + (q.cap - 1) : Nat) : Int) = ((q.bi : Int) - 1) + q.cap by omega,
      Int.add_emod_right]
  rw [h, Int.toNat_natCast]

theorem storedCodes_last {m : Bool} {codes : List Nat} (h : codes ≠ []) :
    (storedCodes m codes)[codes.length - 1]? =
      some (if m ∧ codes.getLast h = 0 then 3 else codes.getLast h) := by
  have hp := List.length_pos_iff.mpr h
  unfold storedCodes
  cases m with
  | false => simp [List.getLast_eq_getElem]
  | true =>
    simp only [if_true]
    unfold markLast
    rw [List.getLast?_eq_some_getLast h]
    simp only
    rw [List.getElem?_append_right (by simp)]
    simp

theorem Rep.ne_nil {m : Bool} {q : Queue α} {W : List (Step α)} (h : Rep m q W) : W ≠ [] := by
  intro e
  have := h.lenW
  have := h.capPos
  simp_all

theorem Rep.last_term {m : Bool} {q : Queue α} {W : List (Step α)} (h : Rep m q W) :
    q.term[q.lastIndex]? =
      some (if m ∧ (W.getLast h.ne_nil).2 = 0 then 3 else (W.getLast h.ne_nil).2) := by
  have hl : (W.map Prod.snd).length = q.cap := by simp [h.lenW]
  have hc := h.capPos
  rw [lastIndex_eq hc]
  have hne : W.map Prod.snd ≠ [] := by simp [h.ne_nil]
  have := h.term (q.cap - 1) (by rw [storedCodes_length, hl]; omega)
  rw [this]
  have := storedCodes_last (m := m) hne
  rw [hl] at this
  rw [this]
  simp

/-- Changing the last code changes the buffer at `lastIndex`. -/
theorem Agree.setLast {buf : List Nat} {cap p : Nat} {A : List Nat} {x y : Nat} (hb : buf.length = cap)
    (hc : 0 < cap) (hA : A.length + 1 = cap) (h : Agree buf cap p (A ++ [x])) :
    Agree (buf.set ((p + (cap - 1)) % cap) y) cap p (A ++ [y]) := by
  intro i hi
  simp at hi
  by_cases hlt : i < A.length
  · have hne : (p + (cap - 1)) % cap ≠ (p + i) % cap := by
      have := mod_ne_of_lt (cap := cap) (p := p + i) (k := cap - 1 - i) (by omega) (by omega)
      rwa [show p + i + (cap - 1 - i) = p + (cap - 1) by omega] at this
    rw [List.getElem?_set_ne hne, h i (by simp; omega), List.getElem?_append_left hlt,
      List.getElem?_append_left hlt]
  · have : i = cap - 1 := by omega
    subst this
    rw [List.getElem?_set_self (by rw [hb]; exact Nat.mod_lt _ hc)]
    rw [List.getElem?_append_right (by omega)]
    simp [show cap - 1 - A.length = 0 by omega]

theorem Rep.clear {m : Bool} {q : Queue α} {W : List (Step α)} (h : Rep m q W) :
    Rep false q.clearMarker W := by
  have hne := h.ne_nil
  have hW : W = W.dropLast ++ [W.getLast hne] := (List.dropLast_concat_getLast hne).symm
  have hlen : (W.dropLast.map Prod.snd).length + 1 = q.cap := by
    have := h.lenW
    have := h.capPos
    simp; omega
  unfold Queue.clearMarker
  rw [h.last_term]
  by_cases hm : m = true ∧ (W.getLast hne).2 = 0
  · obtain ⟨rfl, hz⟩ := hm
    rw [if_pos (by simp [hz])]
    refine ⟨h.capPos, h.lenW, h.lenV, by simpa using h.lenT, h.lenTi, h.codes, h.vals, ?_, h.tiEq, h.ecEq⟩
    have ht := h.term
    rw [lastIndex_eq h.capPos]
    rw [hW, List.map_append] at ht ⊢
    simp only [storedCodes, if_true, markLast] at ht
    simp only [List.map_cons, List.map_nil, List.getLast?_append, List.getLast?_singleton,
      Option.some_or, List.dropLast_concat] at ht
    simp only [storedCodes, List.map_cons, List.map_nil, hz]
    exact ht.setLast h.lenT h.capPos hlen
  · have hle := h.codes _ (List.getLast_mem hne)
    rw [if_neg hm, if_neg (by simp; omega)]
    refine ⟨h.capPos, h.lenW, h.lenV, h.lenT, h.lenTi, h.codes, h.vals, ?_, h.tiEq, h.ecEq⟩
    have ht := h.term
    cases m with
    | false => exact ht
    | true =>
      simp only [true_and] at hm
      have : storedCodes true (W.map Prod.snd) = storedCodes false (W.map Prod.snd) := by
        simp only [storedCodes, if_true, markLast]
        rw [hW, List.map_append]
        simp [hm]
      rwa [this] at ht

theorem clear_cap (q : Queue α) : q.clearMarker.cap = q.cap := by
  unfold Queue.clearMarker; split <;> rfl

theorem clear_bi (q : Queue α) : q.clearMarker.bi = q.bi := by
  unfold Queue.clearMarker; split <;> rfl

theorem countNonzero_zero {l : List Nat} (h : ∀ x ∈ l, x = 0) : countNonzero l = 0 := by
  simp only [countNonzero, List.length_eq_zero_iff, List.filter_eq_nil_iff]
  intro a ha; simp [h a ha]

theorem all_zero_of_countNonzero {l : List Nat} (h : countNonzero l = 0) : ∀ x ∈ l, x = 0 := by
  simp only [countNonzero, List.length_eq_zero_iff, List.filter_eq_nil_iff] at h
  intro a ha
  simpa using h a ha

/-- The input checks of `enqueue` (lines 194-208) accept exactly the acceptable batches. -/
theorem checks_iff (cap : Nat) (xs : List (Step α)) :
    Acceptable cap xs ↔
      (xs.length ≤ cap ∧ countNonzero (xs.map Prod.snd) ≤ 1 ∧
        ∃ tl, (xs.map Prod.snd).getLast? = some tl ∧
          (xs.map Prod.snd).any (fun t => decide (0 < t)) = decide (0 < tl)) := by
  unfold Acceptable
  constructor
  · rintro ⟨hne, hl, hz⟩
    have hx : xs = xs.dropLast ++ [xs.getLast hne] := (List.dropLast_concat_getLast hne).symm
    refine ⟨hl, ?_, (xs.getLast hne).2, ?_, ?_⟩
    · rw [hx, List.map_append, countNonzero_append, countNonzero_zero (by
        intro a ha; obtain ⟨b, hb, rfl⟩ := List.mem_map.mp ha; exact hz b hb)]
      have := countNonzero_le [(xs.getLast hne).2]
      simp at this ⊢
      omega
    · rw [List.getLast?_map, List.getLast?_eq_some_getLast hne]; rfl
    · conv => lhs; rw [hx]
      rw [List.map_append, List.any_append]
      have : (xs.dropLast.map Prod.snd).any (fun t => decide (0 < t)) = false := by
        rw [List.any_eq_false]
        intro a ha; obtain ⟨b, hb, rfl⟩ := List.mem_map.mp ha
        simp [hz b hb]
      rw [this]; simp
  · rintro ⟨hl, hc, tl, htl, hany⟩
    have hne : xs ≠ [] := by intro e; simp [e] at htl
    have hx : xs = xs.dropLast ++ [xs.getLast hne] := (List.dropLast_concat_getLast hne).symm
    have htl' : (xs.getLast hne).2 = tl := by
      rw [List.getLast?_map, List.getLast?_eq_some_getLast hne] at htl; simpa using htl
    refine ⟨hne, hl, ?_⟩
    rw [hx, List.map_append, countNonzero_append] at hc
    intro x hxm
    by_cases hpos : 0 < tl
    · have h1 : countNonzero [(xs.getLast hne).2] = 1 := by
        have hz : tl ≠ 0 := by omega
        simp [countNonzero, htl', hz]
      have h0 : countNonzero (xs.dropLast.map Prod.snd) = 0 := by
        simp only [List.map_cons, List.map_nil] at hc; rw [h1] at hc; omega
      exact all_zero_of_countNonzero h0 _ (List.mem_map_of_mem hxm)
    · have : (xs.map Prod.snd).any (fun t => decide (0 < t)) = false := by rw [hany]; simp; omega
      rw [List.any_eq_false] at this
      have := this x.2 (List.mem_map_of_mem (List.dropLast_subset _ hxm))
      simpa using this

/-- `enqueue` accepts exactly the acceptable batches and then slides the window. -/
theorem Rep.enqueue {m : Bool} {q : Queue α} {W : List (Step α)} (h : Rep m q W)
    (xs : List (Step α)) (hcodes : ∀ x ∈ xs, x.2 ≤ 2) :
    (Acceptable q.cap xs → ∃ q', q.enqueue xs = .ok q' ∧ q'.cap = q.cap ∧ q'.bi = q.bi + xs.length ∧
        Rep true q' ((W ++ xs).drop xs.length)) ∧
    (¬ Acceptable q.cap xs → ∃ e, q.enqueue xs = .error e) := by
  have hr := h.clear
  constructor
  · intro hacc
    obtain ⟨hlen, hcnt, tl, htl, hany⟩ := (checks_iff q.cap xs).mp hacc
    have hne := hacc.1
    have hneT : xs.map Prod.snd ≠ [] := by simp [hne]
    have hcapc := clear_cap q
    have hbic := clear_bi q
    unfold Queue.enqueue
    generalize hQ : q.clearMarker = Q at *
    have hcap := hr.capPos
    simp only
    rw [if_neg (by omega), if_neg (by omega), htl]
    simp only
    rw [if_neg (by simp [hany]), hr.tiEq]
    have hterm : Agree Q.term Q.cap Q.bi (W.map Prod.snd) := hr.term
    rw [gather_termSlots hterm]
    simp only
    rw [if_neg (by simp)]
    rw [hterm.countNonzero_eq hcap hr.lenT (by simp [hr.lenW]), if_neg (by rw [hr.ecEq]; simp)]
    -- overwritten
    have hW : W = W.take xs.length ++ W.drop xs.length := (List.take_append_drop _ _).symm
    have hlt : (W.take xs.length).length = xs.length := by
      rw [List.length_take, hr.lenW]; omega
    have hov : gather Q.term (slots Q.cap Q.bi xs.length) =
        some ((W.take xs.length).map Prod.snd) := by
      have h1 : Agree Q.term Q.cap Q.bi ((W.take xs.length).map Prod.snd) := by
        rw [hW, List.map_append] at hterm
        exact hterm.left
      have := gather_slots h1
      rwa [List.length_map, hlt] at this
    rw [hov]
    simp only
    have hsplit : countNonzero (W.map Prod.snd) =
        countNonzero ((W.take xs.length).map Prod.snd) + countNonzero ((W.drop xs.length).map Prod.snd) := by
      rw [← countNonzero_append, ← List.map_append, List.take_append_drop]
    have htsplit : termSlots Q.cap Q.bi (W.map Prod.snd) =
        termSlots Q.cap Q.bi ((W.take xs.length).map Prod.snd) ++
        termSlots Q.cap (Q.bi + xs.length) ((W.drop xs.length).map Prod.snd) := by
      have := termSlots_append Q.cap ((W.take xs.length).map Prod.snd) ((W.drop xs.length).map Prod.snd) Q.bi
      rw [← List.map_append, List.take_append_drop, List.length_map, hlt] at this
      exact this
    have hec := hr.ecEq
    rw [if_neg (by rw [hec, hsplit]; omega)]
    -- shift
    have hdrop : (termSlots Q.cap Q.bi (W.map Prod.snd)).drop
        (countNonzero ((W.take xs.length).map Prod.snd)) =
        termSlots Q.cap (Q.bi + xs.length) ((W.drop xs.length).map Prod.snd) := by
      rw [htsplit, ← termSlots_length Q.cap _ Q.bi, List.drop_left]
    rw [hdrop]
    generalize hT : termSlots Q.cap (Q.bi + xs.length) ((W.drop xs.length).map Prod.snd) = T
    have hTlen : T.length = countNonzero ((W.drop xs.length).map Prod.snd) := by
      rw [← hT, termSlots_length]
    have hTle : T.length ≤ Q.cap - xs.length := by
      rw [hTlen]
      have := countNonzero_le ((W.drop xs.length).map Prod.snd)
      rw [List.length_map, List.length_drop, hr.lenW] at this
      exact this
    have hsc1 := scatter_range T Q.ti 0 (by rw [hr.lenTi]; omega)
    rw [rangeFrom_zero'] at hsc1
    rw [hsc1]
    simp only [List.take_zero, List.nil_append, Nat.zero_add]
    -- values and terminals
    obtain ⟨term2, ht2, hlt2, hat2⟩ := scatter_slots (cap := Q.cap) (markLast (xs.map Prod.snd)) hcap
      hr.lenT (by simp [hr.lenW]) hterm
    obtain ⟨vals2, hv2, hlv2, hav2⟩ := scatter_slots (cap := Q.cap) (xs.map Prod.fst) hcap
      hr.lenV (by simp [hr.lenW]) hr.vals
    rw [markLast_length, List.length_map] at ht2 hat2
    rw [List.length_map] at hv2 hav2
    rw [ht2, hv2]
    simp only
    -- new terminal indices
    have hnew := slots_zip_filter Q.cap (xs.map Prod.snd) Q.bi
    rw [List.length_map] at hnew
    rw [hnew]
    have hnl : (termSlots Q.cap Q.bi (xs.map Prod.snd)).length = countNonzero (xs.map Prod.snd) :=
      termSlots_length _ _ _
    have hstart : (Q.ec - (countNonzero ((W.take xs.length).map Prod.snd) : Int) + 1).toNat = T.length := by
      rw [hTlen]; rw [hsplit] at hec; omega
    rw [hstart, ← hnl]
    have hpos : 0 < xs.length := List.length_pos_iff.mpr hne
    rw [scatter_range _ _ _ (by simp [hr.lenTi]; omega)]
    simp only
    refine ⟨_, rfl, hcapc, by simp [hbic], ?_⟩
    have hWl : ((W ++ xs).drop xs.length).map Prod.snd =
        (W.drop xs.length).map Prod.snd ++ xs.map Prod.snd := by
      rw [List.drop_append_of_le_length (by rw [hr.lenW]; omega), List.map_append]
    have hts : termSlots Q.cap (Q.bi + xs.length) (((W ++ xs).drop xs.length).map Prod.snd) =
        T ++ termSlots Q.cap Q.bi (xs.map Prod.snd) := by
      rw [hWl, termSlots_append, hT, List.length_map, List.length_drop, hr.lenW,
        show Q.bi + xs.length + (Q.cap - xs.length) = Q.bi + Q.cap by omega, termSlots_add_cap]
    refine ⟨hcap, by simp [hr.lenW], hlv2, hlt2, ?_, ?_, ?_, ?_, ?_, ?_⟩
    · simp [hr.lenTi]; omega
    · intro x hx
      rcases List.mem_append.mp (List.mem_of_mem_drop hx) with hx | hx
      · exact h.codes x hx
      · exact hcodes x hx
    · simpa using hav2
    · simp only [storedCodes, if_true]
      rw [hWl, markLast_append _ _ hneT]
      rw [List.drop_append_of_le_length (by simp [hr.lenW]; omega)] at hat2
      simpa using hat2
    · have hl2 : (Q.ec - (countNonzero ((W.take xs.length).map Prod.snd) : Int) +
          ((termSlots Q.cap Q.bi (xs.map Prod.snd)).length : Int) + 1).toNat =
          (T ++ termSlots Q.cap Q.bi (xs.map Prod.snd)).length := by
        simp only [List.length_append]; omega
      simp only
      rw [hts, hl2, List.take_left' (by simp), List.take_left' rfl]
    · simp only
      rw [hWl, countNonzero_append, hnl]
      rw [hsplit] at hec
      omega
  · intro hacc
    rw [checks_iff] at hacc
    unfold Queue.enqueue
    simp only [clear_cap]
    by_cases h1 : xs.length > q.cap
    · rw [if_pos h1]; exact ⟨_, rfl⟩
    rw [if_neg h1]
    by_cases h2 : countNonzero (xs.map Prod.snd) > 1
    · rw [if_pos h2]; exact ⟨_, rfl⟩
    rw [if_neg h2]
    cases h3 : (xs.map Prod.snd).getLast? with
    | none => exact ⟨_, rfl⟩
    | some tl =>
      simp only
      by_cases h4 : (xs.map Prod.snd).any (fun t => decide (0 < t)) = decide (0 < tl)
      · exact absurd ⟨by omega, by omega, tl, h3, h4⟩ hacc
      · rw [if_pos h4]; exact ⟨_, rfl⟩

end Verif.Memory
