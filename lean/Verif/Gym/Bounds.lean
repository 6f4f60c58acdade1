import Verif.Gym.Total

/-! # Bounds of boxes, and which spaces have no specification -/

namespace Verif.Gym

theorem all_first {x : Num} {xs : List Num} : (x :: xs).all (· == x) = !(x :: xs).any fun y => (x :: xs).any fun z => y ≠ z := by
  cases h : (x :: xs).all (· == x) with
  | true =>
    rw [List.all_eq_true] at h
    symm
    rw [Bool.not_eq_true', List.any_eq_false]
    intro y hy
    rw [Bool.not_eq_true, List.any_eq_false]
    intro z hz
    have h1 : y = x := by simpa using h y hy
    have h2 : z = x := by simpa using h z hz
    simp [h1, h2]
  | false =>
    rw [List.all_eq_false] at h
    obtain ⟨y, hy, hne⟩ := h
    symm
    rw [Bool.not_eq_false', List.any_eq_true]
    refine ⟨y, hy, ?_⟩
    rw [List.any_eq_true]
    exact ⟨x, List.mem_cons_self .., by simpa using hne⟩

/-- The bound of an element on the lower side. -/
theorem lowSpec_at {inf : Bool} {low : List Num} {L : Limit} (h : lowSpec inf none low = .ok L) {i : Nat} {x : Num} (hx : low[i]? = some x)
    (hn : x ≠ .nan) : if lowLimit.lt x then L.bound i = some x else L.bound i = none ∨ L.bound i = some .negInf := by
  have hlt : lowLimit.lt x = !x.le lowLimit := by
    cases x <;> first | exact absurd rfl hn | rfl
  cases low with
  | nil => simp at hx
  | cons y rest =>
    have hmem : x ∈ y :: rest := List.mem_of_getElem? hx
    rw [lowSpec] at h
    split at h
    · rename_i hu
      have e : x = y := by simpa using List.all_eq_true.mp hu x hmem
      subst e
      split at h
      · rename_i hl
        cases h
        rw [if_pos hl]
        rfl
      · rename_i hl
        cases h
        rw [if_neg hl]
        exact .inl rfl
    · split at h
      · cases h
        simp only [Limit.bound, List.getElem?_map, hx, Option.map_some, hlt]
        cases x.le lowLimit <;> simp
      · split at h
        · rename_i ha
          cases h
          rw [if_pos (List.all_eq_true.mp ha x hmem)]
          exact hx
        · cases h

theorem highSpec_at {inf : Bool} {high : List Num} {H : Limit} (h : highSpec inf none high = .ok H) {i : Nat} {x : Num}
    (hx : high[i]? = some x) (hn : x ≠ .nan) :
    if x.lt highLimit then H.bound i = some x else H.bound i = none ∨ H.bound i = some .posInf := by
  have hlt : x.lt highLimit = !highLimit.le x := by
    cases x <;> first | exact absurd rfl hn | rfl
  cases high with
  | nil => simp at hx
  | cons y rest =>
    have hmem : x ∈ y :: rest := List.mem_of_getElem? hx
    rw [highSpec] at h
    split at h
    · rename_i hu
      have e : x = y := by simpa using List.all_eq_true.mp hu x hmem
      subst e
      split at h
      · rename_i hl
        cases h
        rw [if_pos hl]
        rfl
      · rename_i hl
        cases h
        rw [if_neg hl]
        exact .inl rfl
    · split at h
      · cases h
        simp only [Limit.bound, List.getElem?_map, hx, Option.map_some, hlt]
        cases highLimit.le x <;> simp
      · split at h
        · rename_i ha
          cases h
          rw [if_pos (List.all_eq_true.mp ha x hmem)]
          exact hx
        · cases h

theorem zip_not_nan : ∀ {low high : List Num}, low.length = high.length → (List.zipWith Num.le low high).all id = true →
    (∀ x ∈ low, x ≠ .nan) ∧ ∀ x ∈ high, x ≠ .nan
  | [], [], _, _ => ⟨by simp, by simp⟩
  | x :: low, y :: high, hl, h => by
    simp only [List.zipWith_cons_cons, List.all_cons, id, Bool.and_eq_true] at h
    obtain ⟨h1, h2⟩ := zip_not_nan (by simpa using hl) h.2
    refine ⟨fun z hz => ?_, fun z hz => ?_⟩
    · rcases List.mem_cons.mp hz with rfl | hz
      · rintro rfl
        simp [Num.le] at h
      · exact h1 z hz
    · rcases List.mem_cons.mp hz with rfl | hz
      · rintro rfl
        cases x <;> simp [Num.le] at h
      · exact h2 z hz
  | [], _ :: _, hl, _ => by simp at hl
  | _ :: _, [], hl, _ => by simp at hl

theorem box_bounds {inf : Bool} {shape : List Nat} {low high : List Num} (hw : (Space.box shape low high).wf = true) {l : Leaf}
    (h : specs inf none none (.box shape low high) = .ok (.leaf l)) :
    l.kind = .float ∧ l.shape = shape ∧
      (∀ (i : Nat) x, low[i]? = some x → if lowLimit.lt x then l.low.bound i = some x else l.low.bound i = none ∨ l.low.bound i = some .negInf) ∧
      ∀ (i : Nat) x, high[i]? = some x → if x.lt highLimit then l.high.bound i = some x else l.high.bound i = none ∨ l.high.bound i = some .posInf := by
  simp only [Space.wf, goodBox, Bool.and_eq_true, beq_iff_eq, decide_eq_true_eq] at hw
  obtain ⟨⟨⟨⟨⟨h1, h2⟩, -⟩, h4⟩, -⟩, -⟩ := hw
  obtain ⟨n1, n2⟩ := zip_not_nan (h1.trans h2.symm) h4
  simp only [specs, boxSpec] at h
  cases hL : lowSpec inf none low with
  | error e => rw [hL] at h; simp at h
  | ok L =>
    cases hH : highSpec inf none high with
    | error e => rw [hL, hH] at h; simp at h
    | ok H =>
      rw [hL, hH] at h
      simp only [Except.ok.injEq, Spec.leaf.injEq] at h
      subst h
      exact ⟨rfl, rfl, fun i x hx => lowSpec_at hL hx (n1 x (List.mem_of_getElem? hx)),
        fun i x hx => highSpec_at hH hx (n2 x (List.mem_of_getElem? hx))⟩

theorem lowSpec_mixed {low : List Num} (hne : low ≠ []) :
    if mixedBounds lowLimit.lt low then lowSpec false none low = .error .infinite else ∃ L, lowSpec false none low = .ok L := by
  cases low with
  | nil => exact absurd rfl hne
  | cons x xs =>
    rw [mixedBounds, lowSpec, all_first]
    cases (x :: xs).any fun y => (x :: xs).any fun z => decide (y ≠ z) with
    | false =>
      simp only [Bool.false_and, Bool.not_false, if_true, Bool.false_eq_true, if_false]
      split <;> exact ⟨_, rfl⟩
    | true =>
      simp only [Bool.true_and, Bool.not_true, Bool.false_eq_true, if_false]
      cases ha : (x :: xs).all (lowLimit.lt ·) with
      | true =>
        rw [if_neg, if_pos rfl]
        · exact ⟨_, rfl⟩
        · rw [Bool.not_eq_true, List.any_eq_false]
          intro y hy
          simp [List.all_eq_true.mp ha y hy]
      | false =>
        rw [if_pos, if_neg (by simp)]
        rw [List.all_eq_false] at ha
        obtain ⟨y, hy, h⟩ := ha
        rw [List.any_eq_true]
        exact ⟨y, hy, by simpa using h⟩

theorem highSpec_mixed {high : List Num} (hne : high ≠ []) :
    if mixedBounds (Num.lt · highLimit) high then highSpec false none high = .error .infinite
    else ∃ H, highSpec false none high = .ok H := by
  cases high with
  | nil => exact absurd rfl hne
  | cons x xs =>
    rw [mixedBounds, highSpec, all_first]
    cases (x :: xs).any fun y => (x :: xs).any fun z => decide (y ≠ z) with
    | false =>
      simp only [Bool.false_and, Bool.not_false, if_true, Bool.false_eq_true, if_false]
      split <;> exact ⟨_, rfl⟩
    | true =>
      simp only [Bool.true_and, Bool.not_true, Bool.false_eq_true, if_false]
      cases ha : (x :: xs).all (Num.lt · highLimit) with
      | true =>
        rw [if_neg, if_pos rfl]
        · exact ⟨_, rfl⟩
        · rw [Bool.not_eq_true, List.any_eq_false]
          intro y hy
          simp [List.all_eq_true.mp ha y hy]
      | false =>
        rw [if_pos, if_neg (by simp)]
        rw [List.all_eq_false] at ha
        obtain ⟨y, hy, h⟩ := ha
        rw [List.any_eq_true]
        exact ⟨y, hy, by simpa using h⟩

theorem box_rejected {shape : List Nat} {low high : List Num} (hw : (Space.box shape low high).wf = true) :
    if (Space.box shape low high).rejected then specs false none none (.box shape low high) = .error .infinite
    else ∃ sp, specs false none none (.box shape low high) = .ok sp := by
  simp only [Space.wf, goodBox, Bool.and_eq_true, beq_iff_eq, decide_eq_true_eq] at hw
  obtain ⟨⟨⟨⟨⟨h1, h2⟩, h3⟩, -⟩, -⟩, -⟩ := hw
  have h3' : high ≠ [] := by
    intro e
    apply h3
    rw [e] at h2
    exact List.length_eq_zero_iff.mp (h1.trans h2.symm)
  have l := lowSpec_mixed h3
  have r := highSpec_mixed h3'
  rw [Space.rejected, specs, boxSpec]
  cases hm : mixedBounds lowLimit.lt low with
  | true =>
    rw [hm, if_pos rfl] at l
    rw [l]
    rfl
  | false =>
    rw [hm, if_neg (by simp)] at l
    obtain ⟨L, hL⟩ := l
    rw [hL]
    cases hm' : mixedBounds (Num.lt · highLimit) high with
    | true =>
      rw [hm', if_pos rfl] at r
      rw [r]
      rfl
    | false =>
      rw [hm', if_neg (by simp)] at r
      obtain ⟨H, hH⟩ := r
      rw [hH]
      exact ⟨_, rfl⟩

mutual
theorem specs_rejected : ∀ (s : Space), s.wf = true → s.goodNames = true →
    if s.rejected then specs false none none s = .error .infinite else ∃ sp, specs false none none s = .ok sp
  | .discrete n, _, _ => ⟨_, rfl⟩
  | .multiBinary n, _, _ => ⟨_, rfl⟩
  | .other, hw, _ => by simp [Space.wf] at hw
  | .multiDiscrete shape nvec, hw, hg => by
    rcases specs_total true (.multiDiscrete shape nvec) hw hg with h | ⟨h, -⟩
    · have e : specs false none none (.multiDiscrete shape nvec) = specs true none none (.multiDiscrete shape nvec) := by
        cases nvec <;> rfl
      rw [e]
      exact h
    · cases h
  | .box shape low high, hw, _ => box_rejected hw
  | .tuple ss, hw, hg => by
    simp only [Space.wf] at hw
    simp only [Space.goodNames] at hg
    rw [specs_tuple hw hg, Space.rejected]
    have := specs_rejected_tuple ss 0 hw hg
    cases hr : rejectedTuple ss with
    | true =>
      rw [hr, if_pos rfl] at this
      rw [this]
      rfl
    | false =>
      rw [hr, if_neg (by simp)] at this
      obtain ⟨items, h⟩ := this
      rw [h]
      exact ⟨_, rfl⟩
  | .dict ss, hw, hg => by
    simp only [Space.wf, Bool.and_eq_true, decide_eq_true_eq] at hw
    simp only [Space.goodNames] at hg
    rw [specs_dict hw.1 hw.2 hg, Space.rejected]
    have := specs_rejected_dict ss hw.1 hg
    cases hr : rejectedDict ss with
    | true =>
      rw [hr, if_pos rfl] at this
      rw [this]
      rfl
    | false =>
      rw [hr, if_neg (by simp)] at this
      obtain ⟨items, h⟩ := this
      rw [h]
      exact ⟨_, rfl⟩
theorem specs_rejected_tuple : ∀ (ss : List Space) (n : Nat), wfTuple ss = true → goodNamesTuple ss = true →
    if rejectedTuple ss then tupleForm false n ss = .error .infinite else ∃ items, tupleForm false n ss = .ok items
  | [], n, _, _ => ⟨_, rfl⟩
  | s :: ss, n, hw, hg => by
    simp only [wfTuple, Bool.and_eq_true] at hw
    simp only [goodNamesTuple, Bool.and_eq_true] at hg
    rw [tupleForm, rejectedTuple]
    have h1 := specs_rejected s hw.1 hg.1
    have h2 := specs_rejected_tuple ss (n + 1) hw.2 hg.2
    cases hr : s.rejected with
    | true =>
      rw [hr, if_pos rfl] at h1
      rw [h1]
      rfl
    | false =>
      rw [hr, if_neg (by simp)] at h1
      obtain ⟨sp, h1⟩ := h1
      rw [h1]
      cases hr' : rejectedTuple ss with
      | true =>
        rw [hr', if_pos rfl] at h2
        rw [h2]
        rfl
      | false =>
        rw [hr', if_neg (by simp)] at h2
        obtain ⟨items, h2⟩ := h2
        rw [h2]
        exact ⟨_, rfl⟩
theorem specs_rejected_dict : ∀ (ss : List (Name × Space)), wfDict ss = true → goodNamesDict ss = true →
    if rejectedDict ss then dictForm false ss = .error .infinite else ∃ items, dictForm false ss = .ok items
  | [], _, _ => ⟨_, rfl⟩
  | (m, s) :: ss, hw, hg => by
    simp only [wfDict, Bool.and_eq_true] at hw
    simp only [goodNamesDict, Bool.and_eq_true] at hg
    rw [dictForm, rejectedDict]
    have h1 := specs_rejected s hw.1 hg.1.2
    have h2 := specs_rejected_dict ss hw.2 hg.2
    cases hr : s.rejected with
    | true =>
      rw [hr, if_pos rfl] at h1
      rw [h1]
      rfl
    | false =>
      rw [hr, if_neg (by simp)] at h1
      obtain ⟨sp, h1⟩ := h1
      rw [h1]
      cases hr' : rejectedDict ss with
      | true =>
        rw [hr', if_pos rfl] at h2
        rw [h2]
        rfl
      | false =>
        rw [hr', if_neg (by simp)] at h2
        obtain ⟨items, h2⟩ := h2
        rw [h2]
        exact ⟨_, rfl⟩
end

end Verif.Gym
