import Verif.Gym.State

/-! # Lemmas about clipping and dropping -/

namespace Verif.Gym

theorem sort_mem {n : Nat} : ∀ {l : List Nat}, n ∈ sort l ↔ n ∈ l
  | [] => by simp [sort]
  | m :: l => by
    have hins : ∀ (k : Nat) (l : List Nat), n ∈ insert k l ↔ n = k ∨ n ∈ l := by
      intro k l
      induction l with
      | nil => simp [insert]
      | cons a l ih =>
        rw [insert]
        split
        · simp
        · rw [List.mem_cons, ih, List.mem_cons]
          constructor
          · rintro (h | h | h) <;> simp [h]
          · rintro (h | h | h) <;> simp [h]
    rw [sort, hins, sort_mem, List.mem_cons]

theorem sort_length : ∀ (l : List Nat), (sort l).length = l.length
  | [] => rfl
  | m :: l => by
    have hins : ∀ (k : Nat) (l : List Nat), (insert k l).length = l.length + 1 := by
      intro k l
      induction l with
      | nil => rfl
      | cons a l ih => rw [insert]; split <;> simp [ih]
    rw [sort, hins, sort_length l, List.length_cons]

theorem insert_sorted (k : Nat) : ∀ {l : List Nat}, l.Pairwise (· < ·) → k ∉ l → (insert k l).Pairwise (· < ·)
  | [], _, _ => by simp [insert]
  | a :: l, h, hk => by
    rw [List.mem_cons, not_or] at hk
    rw [List.pairwise_cons] at h
    rw [insert]
    split
    · rw [List.pairwise_cons, List.pairwise_cons]
      refine ⟨?_, h⟩
      intro b hb
      rcases List.mem_cons.mp hb with rfl | hb
      · omega
      · have := h.1 b hb; omega
    · rw [List.pairwise_cons]
      refine ⟨?_, insert_sorted k h.2 hk.2⟩
      intro b hb
      have hins : ∀ (l : List Nat), b ∈ insert k l → b = k ∨ b ∈ l := by
        intro l
        induction l with
        | nil => simp [insert]
        | cons c l ih =>
          rw [insert]
          split
          · simp
          · rw [List.mem_cons, List.mem_cons]
            rintro (h | h)
            · exact .inr (.inl h)
            · rcases ih h with h | h
              · exact .inl h
              · exact .inr (.inr h)
      rcases hins l hb with rfl | hb
      · omega
      · exact h.1 b hb

theorem sort_sorted : ∀ {l : List Nat}, l.Nodup → (sort l).Pairwise (· < ·)
  | [], _ => by simp [sort]
  | m :: l, h => by
    rw [List.nodup_cons] at h
    exact insert_sorted m (sort_sorted h.2) (by rw [sort_mem]; exact h.1)

theorem without_nil (n : Nat) (xs : List Num) : without [] n xs = xs := by
  induction xs generalizing n with
  | nil => rfl
  | cons x xs ih => rw [without, if_neg (by simp), ih]

theorem without_congr {l k : List Nat} : ∀ (xs : List Num) (n : Nat), (∀ i, n ≤ i → (i ∈ l ↔ i ∈ k)) → without l n xs = without k n xs
  | [], _, _ => rfl
  | x :: xs, n, h => by
    rw [without, without, without_congr xs (n + 1) (fun i hi => h i (by omega))]
    by_cases hn : n ∈ l
    · rw [if_pos hn, if_pos ((h n (Nat.le_refl n)).mp hn)]
    · rw [if_neg hn, if_neg (fun hk => hn ((h n (Nat.le_refl n)).mpr hk))]

/-- Dropping one more element before all others dropped. -/
theorem without_cons {i : Nat} {rest : List Nat} : ∀ (xs : List Num) (n : Nat), (∀ j ∈ rest, i < j) → n ≤ i →
    without (i :: rest) n xs = (without rest n xs).take (i - n) ++ (without rest n xs).drop (i - n + 1)
  | [], n, _, _ => by simp [without]
  | x :: xs, n, h, hn => by
    by_cases e : n = i
    · subst e
      have hnr : n ∉ rest := fun hm => by have := h n hm; omega
      rw [without, if_pos (List.mem_cons_self ..), without, if_neg hnr]
      simp only [Nat.sub_self, List.take_zero, List.nil_append, Nat.zero_add, List.drop_succ_cons, List.drop_zero]
      refine without_congr xs (n + 1) (fun j hj => ?_)
      rw [List.mem_cons]
      constructor
      · rintro (rfl | h)
        · omega
        · exact h
      · exact .inr
    · have h1 : n ∉ i :: rest := by
        intro hm
        rcases List.mem_cons.mp hm with rfl | hm
        · exact e rfl
        · have := h n hm; omega
      have h2 : n ∉ rest := fun hm => h1 (List.mem_cons_of_mem _ hm)
      rw [without, if_neg h1, without, if_neg h2, without_cons xs (n + 1) h (by omega)]
      rw [show i - n = (i - (n + 1)) + 1 by omega, List.take_succ_cons, List.drop_succ_cons]
      rfl

theorem dropElems_eq : ∀ {l : List Nat}, l.Pairwise (· < ·) → ∀ xs, dropElems l xs = without l 0 xs
  | [], _, xs => by rw [dropElems, without_nil]
  | i :: rest, h, xs => by
    rw [List.pairwise_cons] at h
    rw [dropElems, dropElems_eq h.2, without_cons xs 0 h.1 (by omega)]
    rfl

theorem without_length : ∀ {l : List Nat}, l.Pairwise (· < ·) → ∀ (xs : List Num) (n : Nat), (∀ i ∈ l, n ≤ i ∧ i < n + xs.length) →
    (without l n xs).length + l.length = xs.length
  | l, h, [], n, hr => by
    cases l with
    | nil => rfl
    | cons i l => have := hr i (List.mem_cons_self ..); simp only [List.length_nil] at this; omega
  | l, h, x :: xs, n, hr => by
    cases l with
    | nil => rw [without_nil]; rfl
    | cons i l =>
      rw [List.pairwise_cons] at h
      have hi := hr i (List.mem_cons_self ..)
      simp only [List.length_cons] at hi hr
      by_cases e : n = i
      · subst e
        rw [without, if_pos (List.mem_cons_self ..)]
        have hc := without_congr (l := n :: l) (k := l) xs (n + 1) (fun j hj => by
          rw [List.mem_cons]
          exact ⟨fun hh => hh.resolve_left (by omega), .inr⟩)
        rw [hc]
        have := without_length h.2 xs (n + 1) (fun j hj => by
          have h1 := h.1 j hj; have h2 := hr j (List.mem_cons_of_mem _ hj); omega)
        simp only [List.length_cons]
        omega
      · have hni : n ∉ i :: l := by
          intro hm
          rcases List.mem_cons.mp hm with rfl | hm
          · exact e rfl
          · have := h.1 n hm; omega
        rw [without, if_neg hni]
        have := without_length (List.pairwise_cons.mpr h) xs (n + 1) (fun j hj => by
          have h2 := hr j hj
          have : n ≠ j := fun e => hni (e ▸ hj)
          omega)
        simp only [List.length_cons] at this ⊢
        omega

theorem without_sub (l : List Nat) : ∀ (xs : List Num) (n : Nat), ∀ x ∈ without l n xs, x ∈ xs
  | [], _, x, h => by simp [without] at h
  | y :: ys, n, x, h => by
    rw [without] at h
    split at h
    · exact List.mem_cons_of_mem _ (without_sub l ys (n + 1) x h)
    · rcases List.mem_cons.mp h with rfl | h
      · exact List.mem_cons_self ..
      · exact List.mem_cons_of_mem _ (without_sub l ys (n + 1) x h)

/-! ## Clipping -/

theorem max_ge {x m : Num} (hx : x.isFin = true) (hm : m ≠ .nan) : m.le (x.max m) = true := by
  rw [Num.max]
  split
  · cases m <;> simp_all [Num.le]
  · rename_i h
    cases x <;> cases m <;> simp_all [Num.le, Num.isFin]
    exact Rat.le_of_lt (Rat.not_le.mp h)

theorem le_min {x M : Num} (hx : x ≠ .nan) (hM : M ≠ .nan) : (x.min M).le M = true := by
  rw [Num.min]
  split
  · assumption
  · cases M <;> simp_all [Num.le]

theorem min_ge {x m M : Num} (h1 : m.le x = true) (h2 : m.le M = true) : m.le (x.min M) = true := by
  rw [Num.min]
  split <;> assumption

theorem max_of_le {x m : Num} (hx : x.isFin = true) (h : m.le x = true) : x.max m = x := by
  rw [Num.max]
  split
  · rename_i h'
    cases x <;> cases m <;> simp_all [Num.le, Num.isFin]
    exact Rat.le_antisymm h h'
  · rfl

theorem min_of_le {x M : Num} (h : x.le M = true) : x.min M = x := by
  rw [Num.min, if_pos h]

/-- The bound for one element. -/
def Limit.at (i : Nat) : Limit → Option Num
  | .none => Option.none
  | .scalar m => some m
  | .array ms => ms[i]?

/-- What one side of `np.clip` makes of an element. -/
def sided (f : Num → Num → Num) (x : Num) : Option Num → Num
  | none => x
  | some m => f x m

theorem clipWith_at {f : Num → Num → Num} {xs : List Num} {L : Limit} (hs : L.sized xs.length = true) :
    ∃ ys, clipWith f xs L = .ok ys ∧ ys.length = xs.length ∧ ∀ i x, xs[i]? = some x → ys[i]? = some (sided f x (L.at i)) := by
  cases L with
  | none => exact ⟨xs, rfl, rfl, fun i x h => h⟩
  | scalar m => exact ⟨_, rfl, by simp, fun i x h => by simp [h, Limit.at, sided]⟩
  | array ms =>
    simp only [Limit.sized, beq_iff_eq] at hs
    refine ⟨_, by rw [clipWith, if_pos hs], by simp [hs], fun i x h => ?_⟩
    have hi : i < ms.length := by
      rw [hs]
      exact (List.getElem?_eq_some_iff.mp h).1
    rw [List.getElem?_zipWith, h, List.getElem?_eq_getElem hi]
    simp [Limit.at, sided, List.getElem?_eq_getElem hi]

theorem zip_at {f : Num → Num → Bool} : ∀ {ms xs : List Num}, ms.length = xs.length →
    (∀ (i : Nat) (m x : Num), ms[i]? = some m → xs[i]? = some x → f m x = true) → (List.zipWith f ms xs).all id = true
  | [], [], _, _ => rfl
  | m :: ms, x :: xs, hl, h => by
    simp only [List.zipWith_cons_cons, List.all_cons, id, Bool.and_eq_true]
    exact ⟨h 0 m x rfl rfl, zip_at (by simpa using hl) (fun i a b ha hb => h (i + 1) a b (by simpa using ha) (by simpa using hb))⟩
  | [], _ :: _, hl, _ => by simp at hl
  | _ :: _, [], hl, _ => by simp at hl

theorem below_at {L : Limit} {ys : List Num} (hs : L.sized ys.length = true)
    (h : ∀ i y m, ys[i]? = some y → L.at i = some m → m.le y = true) : L.below ys = true := by
  cases L with
  | none => rfl
  | scalar m =>
    rw [Limit.below, List.all_eq_true]
    intro y hy
    obtain ⟨i, hi, e⟩ := List.mem_iff_getElem.mp hy
    exact h i y m (by rw [List.getElem?_eq_getElem hi, e]) rfl
  | array ms =>
    simp only [Limit.sized, beq_iff_eq] at hs
    rw [Limit.below, hs, zip_at hs (fun i m y hm hy => h i y m hy hm)]
    simp

theorem above_at {L : Limit} {ys : List Num} (hs : L.sized ys.length = true)
    (h : ∀ i y m, ys[i]? = some y → L.at i = some m → y.le m = true) : L.above ys = true := by
  cases L with
  | none => rfl
  | scalar m =>
    rw [Limit.above, List.all_eq_true]
    intro y hy
    obtain ⟨i, hi, e⟩ := List.mem_iff_getElem.mp hy
    exact h i y m (by rw [List.getElem?_eq_getElem hi, e]) rfl
  | array ms =>
    simp only [Limit.sized, beq_iff_eq] at hs
    rw [Limit.above, hs, zip_at hs.symm (fun i y m hy hm => h i y m hy hm)]
    simp

theorem lt_iff {a b : Num} (ha : a ≠ .nan) (hb : b ≠ .nan) : a.lt b = !b.le a := by
  cases a <;> cases b <;> simp_all [Num.lt]

theorem lowSpec_min {m : Rat} {low : List Num} (hne : low ≠ []) (hn : ∀ y ∈ low, y ≠ Num.nan) :
    ∃ L, lowSpec false (some m) low = .ok L ∧ L.sized low.length = true ∧
      ∀ i y, low[i]? = some y → L.at i = some (lowBound m y) := by
  cases low with
  | nil => exact absurd rfl hne
  | cons x rest =>
    rw [lowSpec]
    by_cases hu : (x :: rest).all (· == x) = true
    · rw [if_pos hu]
      rw [List.all_eq_true] at hu
      have hall : ∀ i y, (x :: rest)[i]? = some y → y = x := fun i y h => by
        simpa using hu y (List.mem_of_getElem? h)
      by_cases hl : lowLimit.lt x = true
      · refine ⟨.scalar x, by rw [if_pos hl], rfl, fun i y h => ?_⟩
        rw [hall i y h, lowBound, if_pos hl]
        rfl
      · refine ⟨.scalar (.fin m), by rw [if_neg hl], rfl, fun i y h => ?_⟩
        rw [hall i y h, lowBound, if_neg hl]
        rfl
    · rw [if_neg hu, if_neg (by simp)]
      by_cases hl : (x :: rest).all (lowLimit.lt ·) = true
      · rw [if_pos hl]
        rw [List.all_eq_true] at hl
        refine ⟨_, rfl, by simp [Limit.sized], fun i y h => ?_⟩
        rw [lowBound, if_pos (hl y (List.mem_of_getElem? h))]
        exact h
      · rw [if_neg hl]
        refine ⟨_, rfl, by simp [Limit.sized], fun i y h => ?_⟩
        have hy := hn y (List.mem_of_getElem? h)
        simp only [Limit.at, List.getElem?_map, h, Option.map_some, lowBound, Option.some.injEq]
        rw [lt_iff (by simp [lowLimit]) hy]
        cases y.le lowLimit <;> rfl

theorem highSpec_max {m : Rat} {high : List Num} (hne : high ≠ []) (hn : ∀ y ∈ high, y ≠ Num.nan) :
    ∃ L, highSpec false (some m) high = .ok L ∧ L.sized high.length = true ∧
      ∀ i y, high[i]? = some y → L.at i = some (highBound m y) := by
  cases high with
  | nil => exact absurd rfl hne
  | cons x rest =>
    rw [highSpec]
    by_cases hu : (x :: rest).all (· == x) = true
    · rw [if_pos hu]
      rw [List.all_eq_true] at hu
      have hall : ∀ i y, (x :: rest)[i]? = some y → y = x := fun i y h => by
        simpa using hu y (List.mem_of_getElem? h)
      by_cases hl : x.lt highLimit = true
      · refine ⟨.scalar x, by rw [if_pos hl], rfl, fun i y h => ?_⟩
        rw [hall i y h, highBound, if_pos hl]
        rfl
      · refine ⟨.scalar (.fin m), by rw [if_neg hl], rfl, fun i y h => ?_⟩
        rw [hall i y h, highBound, if_neg hl]
        rfl
    · rw [if_neg hu, if_neg (by simp)]
      by_cases hl : (x :: rest).all (Num.lt · highLimit) = true
      · rw [if_pos hl]
        rw [List.all_eq_true] at hl
        refine ⟨_, rfl, by simp [Limit.sized], fun i y h => ?_⟩
        rw [highBound, if_pos (hl y (List.mem_of_getElem? h))]
        exact h
      · rw [if_neg hl]
        refine ⟨_, rfl, by simp [Limit.sized], fun i y h => ?_⟩
        have hy := hn y (List.mem_of_getElem? h)
        simp only [Limit.at, List.getElem?_map, h, Option.map_some, highBound, Option.some.injEq]
        rw [lt_iff hy (by simp [highLimit])]
        cases highLimit.le y <;> rfl

theorem bound_fin_low {m : Rat} {y : Num} (h : y ≠ .posInf) : (lowBound m y).isFin = true := by
  rw [lowBound]
  cases y with
  | fin r => split <;> rfl
  | posInf => exact absurd rfl h
  | negInf => rfl
  | nan => rfl

theorem bound_fin_high {m : Rat} {y : Num} (h : y ≠ .negInf) : (highBound m y).isFin = true := by
  rw [highBound]
  cases y with
  | fin r => split <;> rfl
  | negInf => exact absurd rfl h
  | posInf => rfl
  | nan => rfl

theorem fin_not_nan {x : Num} (h : x.isFin = true) : x ≠ .nan := by
  cases x <;> simp_all [Num.isFin]

theorem clamp_ok {lo hi x : Num} (hlo : lo.isFin = true) (hhi : hi.isFin = true) (hx : x.isFin = true) (h : lo.le hi = true) :
    Clamped lo hi x ((x.max lo).min hi) ∧ ((x.max lo).min hi).isFin = true ∧ lo.le ((x.max lo).min hi) = true ∧
      ((x.max lo).min hi).le hi = true := by
  have hm : (x.max lo).isFin = true := by rw [Num.max]; split <;> assumption
  have hmm : ((x.max lo).min hi).isFin = true := by rw [Num.min]; split <;> assumption
  refine ⟨⟨?_, ?_, ?_⟩, hmm, min_ge (max_ge hx (fin_not_nan hlo)) h, le_min (fin_not_nan hm) (fin_not_nan hhi)⟩
  · intro hn
    have : x.max lo = lo := by
      rw [Num.max, if_pos]
      cases x <;> cases lo <;> simp_all [Num.le, Num.isFin]
      exact Rat.le_of_lt (Rat.not_le.mp hn)
    rw [this, min_of_le h]
  · intro hn
    have h2 : ¬ (x.max lo).le hi = true := by
      rw [Num.max]
      split
      · rename_i hxl
        cases x <;> cases lo <;> cases hi <;> simp_all [Num.le, Num.isFin]
        exact absurd (Rat.le_trans hxl h) hn
      · rw [hn]; simp
    rw [Num.min, if_neg h2]
  · intro h1 h2
    rw [max_of_le hx h1, min_of_le h2]

end Verif.Gym
