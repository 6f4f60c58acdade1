import Verif.Param.Sample

/-! # Lemmas about piecewise-constant and linear schedules -/

namespace Verif.Param

theorem pieceIndex_zero {bs : List Nat} {step : Nat} (h : ∀ b ∈ bs, step ≤ b) : pieceIndex bs step = 0 := by
  unfold pieceIndex
  rw [List.countP_eq_zero]
  intro b hb
  have := h b hb
  simp; omega

theorem pieceIndex_all {bs : List Nat} {step : Nat} (h : ∀ b ∈ bs, b < step) : pieceIndex bs step = bs.length := by
  unfold pieceIndex
  rw [List.countP_eq_length]
  intro b hb
  simp [h b hb]

theorem pieceIndex_cons (b : Nat) (bs : List Nat) (step : Nat) :
    pieceIndex (b :: bs) step = pieceIndex bs step + if b < step then 1 else 0 := by
  unfold pieceIndex
  rw [List.countP_cons]
  simp

theorem middle_eq {α : Type} (step : Nat) (lo : Nat) (bs : List Nat) (vs : List α) (hlo : lo < step)
    (hs : (lo :: bs).Pairwise (· ≤ ·)) (hl : vs.length = bs.length) :
    middle step (lo :: bs) vs = vs[pieceIndex bs step]? := by
  induction bs generalizing lo vs with
  | nil =>
    have : vs = [] := List.length_eq_zero_iff.mp (by simpa using hl)
    subst this
    simp [middle]
  | cons hi bs ih =>
    cases vs with
    | nil => simp at hl
    | cons v vs =>
      simp only [middle]
      have hs' : (hi :: bs).Pairwise (· ≤ ·) := (List.pairwise_cons.mp hs).2
      by_cases h : step ≤ hi
      · rw [if_pos ⟨hlo, h⟩]
        have : pieceIndex (hi :: bs) step = 0 := pieceIndex_zero (by
          intro b hb
          rcases List.mem_cons.mp hb with rfl | hb
          · exact h
          · have := (List.pairwise_cons.mp hs').1 b hb
            omega)
        rw [this]; rfl
      · rw [if_neg (by omega), ih hi vs (by omega) hs' (by simpa using hl), pieceIndex_cons, if_pos (by omega)]
        rfl

theorem last_max {bs : List Nat} (hs : bs.Pairwise (· ≤ ·)) : ∀ b ∈ bs, b ≤ bs.getLastD 0 := by
  induction bs with
  | nil => simp
  | cons a bs ih =>
    intro b hb
    cases bs with
    | nil => simp at hb; subst hb; simp
    | cons c cs =>
      have e : (a :: c :: cs).getLastD 0 = (c :: cs).getLastD 0 := by simp [List.getLastD]
      rw [e]
      have hp := List.pairwise_cons.mp hs
      rcases List.mem_cons.mp hb with rfl | hb
      · have h1 := hp.1 c (by simp)
        have h2 := ih hp.2 c (by simp)
        omega
      · exact ih hp.2 b hb

theorem last_mem (b : Nat) (bs : List Nat) : (b :: bs).getLastD 0 ∈ b :: bs := by
  induction bs generalizing b with
  | nil => simp
  | cons c cs ih =>
    have e : (b :: c :: cs).getLastD 0 = (c :: cs).getLastD 0 := by simp [List.getLastD]
    rw [e]; exact List.mem_cons_of_mem _ (ih c)

theorem pieceIndex_lt {bs : List Nat} {step b : Nat} (hb : b ∈ bs) (h : step ≤ b) : pieceIndex bs step < bs.length := by
  rcases Nat.lt_or_ge (pieceIndex bs step) bs.length with h1 | h1
  · exact h1
  · have h2 : pieceIndex bs step ≤ bs.length := List.countP_le_length
    have h3 : bs.countP (· < step) = bs.length := by unfold pieceIndex at *; omega
    have := (List.countP_eq_length.mp h3) b hb
    simp at this; omega

theorem piecewise_eq {α : Type} {bs : List Nat} {vs : List α} (hok : pieceOk bs vs.length = true) (step : Nat) :
    piecewise bs vs step = vs[pieceIndex bs step]? := by
  simp only [pieceOk, Bool.and_eq_true, decide_eq_true_eq] at hok
  obtain ⟨⟨hl, hs⟩, hne⟩ := hok
  cases bs with
  | nil => simp at hne
  | cons b bs =>
    have hp := List.pairwise_cons.mp hs
    simp only [piecewise]
    split
    · rename_i h
      rw [pieceIndex_zero (by
        intro c hc
        rcases List.mem_cons.mp hc with rfl | hc
        · exact h
        · have := hp.1 c hc; omega)]
      rw [List.head?_eq_getElem?]
    · rename_i h
      split
      · rename_i hlast
        rw [pieceIndex_all (fun c hc => by have := last_max hs c hc; omega), List.getLast?_eq_getElem?, hl]
        rfl
      · rename_i hlast
        have hlen : (vs.drop 1).dropLast.length = bs.length := by
          simp only [List.length_dropLast, List.length_drop, hl, List.length_cons]; omega
        rw [middle_eq step b bs _ (by omega) hs hlen, pieceIndex_cons, if_pos (by omega)]
        have hmem := pieceIndex_lt (step := step) (last_mem b bs) (by omega)
        rw [pieceIndex_cons, if_pos (by omega)] at hmem
        simp only [List.length_cons] at hmem
        rw [List.getElem?_dropLast, List.getElem?_drop]
        simp only [List.length_drop, hl, List.length_cons]
        rw [if_pos (by omega), Nat.add_comm]

/-- The piece index is the only position whose neighbouring boundaries enclose the step. -/
theorem pieceIndex_iff {bs : List Nat} (hs : bs.Pairwise (· ≤ ·)) (step i : Nat) (hi : i ≤ bs.length) :
    pieceIndex bs step = i ↔ (∀ j b, j < i → bs[j]? = some b → b < step) ∧ (∀ j b, i ≤ j → bs[j]? = some b → step ≤ b) := by
  induction bs generalizing i with
  | nil =>
    have : i = 0 := by simpa using hi
    subst this
    simp [pieceIndex]
  | cons c bs ih =>
    have hp := List.pairwise_cons.mp hs
    rw [pieceIndex_cons]
    by_cases hc : c < step
    · rw [if_pos hc]
      cases i with
      | zero =>
        constructor
        · intro h; omega
        · intro h
          have := h.2 0 c (by omega) rfl
          omega
      | succ i =>
        have := ih hp.2 i (by simpa using hi)
        constructor
        · intro h
          have h2 := this.mp (by omega)
          refine ⟨fun j b hj hb => ?_, fun j b hj hb => ?_⟩
          · cases j with
            | zero => simp at hb; omega
            | succ j => exact h2.1 j b (by omega) (by simpa using hb)
          · cases j with
            | zero => omega
            | succ j => exact h2.2 j b (by omega) (by simpa using hb)
        · intro h
          have h2 := this.mpr ⟨fun j b hj hb => h.1 (j + 1) b (by omega) (by simpa using hb),
            fun j b hj hb => h.2 (j + 1) b (by omega) (by simpa using hb)⟩
          omega
    · rw [if_neg hc]
      have h0 : pieceIndex bs step = 0 := pieceIndex_zero fun b hb => by have := hp.1 b hb; omega
      rw [h0]
      constructor
      · intro h
        have : i = 0 := by omega
        subst this
        refine ⟨fun j b hj => by omega, fun j b _ hb => ?_⟩
        cases j with
        | zero => simp at hb; omega
        | succ j =>
          have := hp.1 b (List.mem_of_getElem? (by simpa using hb))
          omega
      · intro h
        cases i with
        | zero => rfl
        | succ i =>
          have := h.1 0 c (by omega) rfl
          omega

/-! ## Linear -/

theorem raw_linear {o : Oracle} (ho : Lawful o) (x0 f : Rat) (d step : Nat) (hd : 0 < d) :
    raw o (.polynomial f 1 false) x0 d step = x0 + (f - x0) * part d step := by
  simp only [raw, Bool.false_eq_true, if_false]
  rw [ho.pow_one _ (by have := part_range d step hd; grind)]
  grind

theorem part_mono (d s t : Nat) (hd : 0 < d) (h : s ≤ t) : part d s ≤ part d t := by
  unfold part
  have hd' : (0 : Rat) < (d : Rat) := by exact_mod_cast hd
  have h1 : min s d ≤ min t d := by omega
  have h1' : ((min s d : Nat) : Rat) ≤ ((min t d : Nat) : Rat) := by exact_mod_cast h1
  rw [Rat.div_def, Rat.div_def, Rat.mul_comm, Rat.mul_comm _ ((d : Rat)⁻¹)]
  exact mul_up (by have := Rat.inv_pos.mpr hd'; grind) h1'

theorem value_linear {o : Oracle} (ho : Lawful o) (n : Nat) (a b : Rat) (isInt : Bool) (eps : Rat) (step : Nat) :
    (Param.linear n a b isInt).value o eps step = some (toDtype isInt (a + (b - a) * part (n + 1) step)) := by
  have hv : (0 : Rat) ≤ 1 := by decide +kernel
  simp only [Param.value, Param.linear, valid, hv, decide_true, if_true, post, Bool.false_eq_true, false_and, if_false]
  rw [raw_linear ho a b (n + 1) step (by omega)]

end Verif.Param
