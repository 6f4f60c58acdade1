import Verif.Explore.Spec

/-! # Lemmas about exploration -/

namespace Verif.Explore

/-! ## The valid choices -/

/-- Positions of the valid entries of a row. -/
def valid (row : List Bool) : List Nat :=
  ((List.range row.length).zip row).filterMap fun c => if c.2 then some c.1 else none

theorem choices_eq (n : Nat) (mask : List (List Bool)) (h : ∀ row ∈ mask, row.length = n) : choices n mask = (mask.map valid).flatten := by
  unfold choices
  induction mask with
  | nil => rfl
  | cons row mask ih =>
    have hr : row.length = n := h row (by simp)
    rw [List.length_cons, List.replicate_succ, List.flatten_cons, List.flatten_cons, List.zip_append (by simp [hr]), List.filterMap_append,
      ih fun r hr => h r (by simp [hr]), List.map_cons, List.flatten_cons, valid, hr]

theorem valid_length_aux (row : List Bool) (l : List Nat) (h : l.length = row.length) :
    ((l.zip row).filterMap fun c => if c.2 then some c.1 else none).length = row.count true := by
  induction row generalizing l with
  | nil => simp
  | cons b row ih =>
    cases l with
    | nil => simp at h
    | cons a l =>
      have := ih l (by simpa using h)
      cases b <;> simp [List.filterMap_cons, this]

theorem valid_length (row : List Bool) : (valid row).length = row.count true := valid_length_aux row _ (by simp)

theorem mem_valid (row : List Bool) (x : Nat) : x ∈ valid row ↔ row[x]? = some true := by
  unfold valid
  rw [List.mem_filterMap]
  constructor
  · rintro ⟨⟨a, b⟩, hm, hx⟩
    obtain ⟨i, hi, he⟩ := List.mem_iff_getElem.mp hm
    rw [List.getElem_zip, List.getElem_range] at he
    cases b with
    | false => simp at hx
    | true =>
      simp only [if_true, Option.some.injEq] at hx
      have e1 : i = a := congrArg Prod.fst he
      have e2 := congrArg Prod.snd he
      subst hx e1
      rw [List.getElem?_eq_getElem (by simpa using hi)]
      exact congrArg some e2
  · intro h
    obtain ⟨hx, he⟩ := List.getElem?_eq_some_iff.mp h
    refine ⟨(x, true), List.mem_iff_getElem.mpr ⟨x, by simpa using hx, ?_⟩, by simp⟩
    rw [List.getElem_zip, List.getElem_range, he]

/-! ## Gathering -/

theorem gather_shift {α : Type} (l r : List α) (o : Nat) (is : List Int) (h : ∀ i ∈ is, (o : Int) ≤ i) (hl : l.length = o) :
    gather (l ++ r) is = gather r (is.map (· - (o : Int))) := by
  unfold gather
  rw [List.mapM_map]
  induction is with
  | nil => rfl
  | cons i is ih =>
    have hi := h i (by simp)
    rw [List.mapM_cons, List.mapM_cons, ih fun j hj => h j (by simp [hj])]
    have e : (if 0 ≤ i then (l ++ r)[i.toNat]? else none) = (if 0 ≤ i - (o : Int) then r[(i - (o : Int)).toNat]? else none) := by
      rw [if_pos (by omega), if_pos (by omega), List.getElem?_append_right (by omega)]
      congr 1
      omega
    simp only [Function.comp, e]

theorem cumsum_shift (c acc : Nat) (ns : List Nat) : cumsum (acc + c) ns = (cumsum acc ns).map (· + c) := by
  induction ns generalizing acc with
  | nil => rfl
  | cons n ns ih =>
    rw [cumsum, cumsum, List.map_cons, ← ih]
    congr 2
    omega


/-! ## The masked choice, row by row -/

/-- Offsets that stay within their rows. -/
def InRange (rnd : Rat → Rat) : List (List Bool) → List Rat → Prop
  | [], [] => True
  | row :: mask, u :: us => 0 ≤ randomOffset rnd u (row.count true) ∧ randomOffset rnd u (row.count true) < (row.count true : Int) ∧ InRange rnd mask us
  | _, _ => False

/-- The entry of a row a random outcome selects. -/
def pick (rnd : Rat → Rat) (row : List Bool) (u : Rat) : Nat := (valid row).getD (randomOffset rnd u (row.count true)).toNat 0

theorem maskedRandom_rows (rnd : Rat → Rat) (n : Nat) (mask : List (List Bool)) (us : List Rat) (h : ∀ row ∈ mask, row.length = n)
    (hr : InRange rnd mask us) : maskedRandom rnd n mask us = some (List.zipWith (pick rnd) mask us) := by
  unfold maskedRandom
  rw [choices_eq n mask h]
  clear h
  induction mask generalizing us with
  | nil => cases us <;> simp [gather, cumsum, numValid]
  | cons row mask ih =>
    cases us with
    | nil => exact absurd hr (by simp [InRange])
    | cons u us =>
      obtain ⟨h0, h1, h2⟩ := hr
      have ih := ih us h2
      simp only [numValid, List.map_cons, List.flatten_cons, cumsum, List.zipWith_cons_cons] at ih ⊢
      rw [cumsum_shift (row.count true) 0]
      generalize hT : List.zipWith (fun (o : Nat) (r : Int) => (o : Int) + r) (cumsum 0 (mask.map (·.count true)))
        (List.zipWith (randomOffset rnd) us (mask.map (·.count true))) = T at ih
      have hT' : List.zipWith (fun (o : Nat) (r : Int) => (o : Int) + r) ((cumsum 0 (mask.map (·.count true))).map (· + row.count true))
          (List.zipWith (randomOffset rnd) us (mask.map (·.count true))) = T.map (· + (row.count true : Int)) := by
        rw [← hT, List.zipWith_map_left, List.map_zipWith]
        congr 1
        funext a b
        omega
      have hpos : ∀ t ∈ T, 0 ≤ t := by
        intro t ht
        apply Decidable.byContradiction
        intro hn
        have : gather ((mask.map valid).flatten) T = none := by
          clear hT hT' ih
          induction T with
          | nil => simp at ht
          | cons a T iT =>
            unfold gather at iT ⊢
            rw [List.mapM_cons]
            rcases List.mem_cons.mp ht with rfl | ht
            · rw [if_neg hn]; rfl
            · rw [iT ht]; cases (if 0 ≤ a then (mask.map valid).flatten[a.toNat]? else none) <;> rfl
        rw [this] at ih
        cases ih
      rw [hT']
      have hg := gather_shift (valid row) (mask.map valid).flatten (row.count true) (T.map (· + (row.count true : Int)))
        (by intro i hi; obtain ⟨t, ht, rfl⟩ := List.mem_map.mp hi; have := hpos t ht; omega) (valid_length row)
      rw [List.map_map] at hg
      have hid : ((fun x : Int => x - (row.count true : Int)) ∘ fun x => x + (row.count true : Int)) = id := by funext x; simp only [Function.comp, id]; omega
      rw [hid, List.map_id, ih] at hg
      unfold gather at hg ⊢
      rw [List.mapM_cons, hg]
      have hlen := valid_length row
      have e : (if 0 ≤ ((0 : Nat) : Int) + randomOffset rnd u (row.count true) then
          (valid row ++ (mask.map valid).flatten)[(((0 : Nat) : Int) + randomOffset rnd u (row.count true)).toNat]? else none) = some (pick rnd row u) := by
        rw [if_pos (by omega), List.getElem?_append_left (by omega)]
        have e0 : ((0 : Nat) : Int) + randomOffset rnd u (row.count true) = randomOffset rnd u (row.count true) := by omega
        rw [e0, pick, List.getD_eq_getElem?_getD, List.getElem?_eq_getElem (by omega)]
        rfl
      rw [e]
      rfl

theorem pick_valid (rnd : Rat → Rat) (row : List Bool) (u : Rat) (h0 : 0 ≤ randomOffset rnd u (row.count true))
    (h1 : randomOffset rnd u (row.count true) < (row.count true : Int)) : row[pick rnd row u]? = some true := by
  have hlen := valid_length row
  rw [← mem_valid, pick, List.getD_eq_getElem?_getD, List.getElem?_eq_getElem (by omega)]
  exact List.getElem_mem _

theorem rows_valid (rnd : Rat → Rat) (mask : List (List Bool)) (us : List Rat) (hr : InRange rnd mask us) :
    AllValid mask (List.zipWith (pick rnd) mask us) := by
  induction mask generalizing us with
  | nil => cases us <;> simp [AllValid]
  | cons row mask ih =>
    cases us with
    | nil => exact absurd hr (by simp [InRange])
    | cons u us =>
      obtain ⟨h0, h1, h2⟩ := hr
      obtain ⟨i1, i2⟩ := ih us h2
      refine ⟨by simp only [List.zipWith_cons_cons, List.length_cons, i1], fun k x hx => ?_⟩
      rw [List.zipWith_cons_cons] at hx
      cases k with
      | zero =>
        simp only [List.getElem?_cons_zero, Option.some.injEq] at hx
        subst hx
        exact ⟨row, rfl, pick_valid rnd row u h0 h1⟩
      | succ k => exact i2 k x hx

/-! ## Offsets -/

theorem toInt_eq (x : Rat) (k : Nat) (h0 : (k : Rat) ≤ x) (h1 : x < (k : Rat) + 1) : toInt x = k := by
  have hk : (0 : Rat) ≤ (k : Rat) := by exact_mod_cast Nat.zero_le k
  rw [toInt, if_pos (Rat.le_trans hk h0)]
  have a : (k : Int) ≤ x.floor := Rat.le_floor_iff.mpr (by exact_mod_cast h0)
  have b : x.floor < (k : Int) + 1 := by
    apply Decidable.byContradiction
    intro hn
    have : (k : Int) + 1 ≤ x.floor := by omega
    have := Rat.le_floor_iff.mp this
    have e : (((k : Int) + 1 : Int) : Rat) = (k : Rat) + 1 := by norm_cast
    rw [e] at this
    grind
  omega

theorem toInt_range (x : Rat) (n : Nat) (h0 : 0 ≤ x) (h1 : x < (n : Rat)) : 0 ≤ toInt x ∧ toInt x < (n : Int) := by
  rw [toInt, if_pos h0]
  refine ⟨Rat.le_floor_iff.mpr (by exact_mod_cast h0), ?_⟩
  apply Decidable.byContradiction
  intro hn
  have : (n : Int) ≤ x.floor := by omega
  have := Rat.le_floor_iff.mp this
  have e : ((n : Int) : Rat) = (n : Rat) := by norm_cast
  rw [e] at this
  grind

theorem offset_exact (u : Rat) (c : Nat) (h0 : 0 ≤ u) (h1 : u < 1) (hc : 0 < c) :
    0 ≤ randomOffset id u c ∧ randomOffset id u c < (c : Int) := by
  have hcr : (0 : Rat) < (c : Rat) := by exact_mod_cast hc
  apply toInt_range
  · exact Rat.mul_nonneg h0 (Rat.le_of_lt hcr)
  · have := Rat.mul_lt_mul_of_pos_right h1 hcr
    simpa using this

theorem offset_float (rnd : Rat → Rat) (hr : Rounding rnd) (j c : Nat) (hj : j < 2 ^ 23) (hc : 0 < c) :
    0 ≤ randomOffset rnd ((j : Rat) / 2 ^ 23) c ∧ randomOffset rnd ((j : Rat) / 2 ^ 23) c < (c : Int) := by
  have hcr : (0 : Rat) < (c : Rat) := by exact_mod_cast hc
  have hj0 : (0 : Rat) ≤ (j : Rat) := by exact_mod_cast Nat.zero_le j
  have hj1 : (j : Rat) ≤ 8388607 := by
    have : j ≤ 8388607 := by omega
    exact_mod_cast this
  have p0 := Rat.mul_nonneg hj0 (Rat.le_of_lt hcr)
  have p1 : (j : Rat) * c ≤ 8388607 * c := Rat.mul_le_mul_of_nonneg_right hj1 (Rat.le_of_lt hcr)
  have e : (j : Rat) / 2 ^ 23 * (c : Rat) = (j : Rat) * c / 8388608 := by grind
  have hx : 0 ≤ (j : Rat) * c / 8388608 := by grind
  obtain ⟨r0, r1⟩ := hr _ hx
  rw [randomOffset, e]
  apply toInt_range <;> grind

theorem offset_exact_hits (k c : Nat) (hk : k < c) : ∃ u : Rat, (0 ≤ u ∧ u < 1) ∧ randomOffset id u c = k := by
  have hcr : (0 : Rat) < (c : Rat) := by exact_mod_cast (by omega : 0 < c)
  have hk0 : (0 : Rat) ≤ (k : Rat) := by exact_mod_cast Nat.zero_le k
  have hkc : (k : Rat) < (c : Rat) := by exact_mod_cast hk
  have e : (k : Rat) / c * c = k := Rat.div_mul_cancel (by grind)
  refine ⟨(k : Rat) / c, ⟨?_, ?_⟩, ?_⟩
  · rw [Rat.div_def]; exact Rat.mul_nonneg hk0 (Rat.le_of_lt (Rat.inv_pos.mpr hcr))
  · rw [Rat.div_lt_iff hcr]; grind
  · rw [randomOffset, e]
    apply toInt_eq <;> simp only [id] <;> grind

theorem offset_float_hits (rnd : Rat → Rat) (hr : Rounding rnd) (k c : Nat) (hk : k < c) (hc : c ≤ 2 ^ 21) :
    ∃ j : Nat, j < 2 ^ 23 ∧ randomOffset rnd ((j : Rat) / 2 ^ 23) c = k := by
  obtain ⟨j, hj⟩ : ∃ j, j = (k * 2 ^ 23 + 2 ^ 22) / c := ⟨_, rfl⟩
  have hcp : 0 < c := by omega
  have a1 : j * c ≤ k * 8388608 + 4194304 := by rw [hj]; exact Nat.div_mul_le_self _ _
  have a2 : k * 8388608 + 4194304 < j * c + c := by
    have := Nat.lt_div_mul_add (a := k * 2 ^ 23 + 2 ^ 22) hcp
    rw [← hj] at this
    omega
  have hlt : j < 2 ^ 23 := by
    apply Decidable.byContradiction
    intro hn
    have : 8388608 * c ≤ j * c := Nat.mul_le_mul_right c (by omega)
    omega
  refine ⟨j, hlt, ?_⟩
  have b1 : (j : Rat) * c ≤ (k : Rat) * 8388608 + 4194304 := by exact_mod_cast a1
  have b2 : (k : Rat) * 8388608 + 4194304 < (j : Rat) * c + c := by exact_mod_cast a2
  have b3 : (c : Rat) ≤ 2097152 := by exact_mod_cast hc
  have b4 : (k : Rat) < c := by exact_mod_cast hk
  have b5 : (0 : Rat) ≤ (k : Rat) := by exact_mod_cast Nat.zero_le k
  have b6 : (0 : Rat) ≤ (j : Rat) * c := by exact_mod_cast Nat.zero_le (j * c)
  have e : (j : Rat) / 2 ^ 23 * (c : Rat) = (j : Rat) * c / 8388608 := by grind
  have hx : 0 ≤ (j : Rat) * c / 8388608 := by grind
  obtain ⟨r0, r1⟩ := hr _ hx
  rw [randomOffset, e]
  apply toInt_eq <;> grind

/-! ## All rows -/

theorem inRange_of (rnd : Rat → Rat) (P : Rat → Prop) (n : Nat)
    (h : ∀ u c, P u → 0 < c → 0 ≤ randomOffset rnd u c ∧ randomOffset rnd u c < (c : Int)) (mask : List (List Bool)) (us : List Rat)
    (hm : GoodMask n mask) (hu : ∀ u ∈ us, P u) (hl : us.length = mask.length) : InRange rnd mask us := by
  induction mask generalizing us with
  | nil => cases us with
    | nil => trivial
    | cons => simp at hl
  | cons row mask ih =>
    cases us with
    | nil => simp at hl
    | cons u us =>
      have hc : 0 < row.count true := List.count_pos_iff.mpr (hm row (by simp)).2
      obtain ⟨h0, h1⟩ := h u _ (hu u (by simp)) hc
      exact ⟨h0, h1, ih us (fun r hr => hm r (by simp [hr])) (fun v hv => hu v (by simp [hv])) (by simpa using hl)⟩

theorem rows_hit (rnd : Rat → Rat) (P : Rat → Prop) (n : Nat)
    (h : ∀ k c, k < c → c ≤ n → ∃ u, P u ∧ randomOffset rnd u c = (k : Int)) (mask : List (List Bool)) (hm : ∀ row ∈ mask, row.length = n)
    (a : List Nat) (ha : AllValid mask a) :
    ∃ us : List Rat, us.length = mask.length ∧ (∀ u ∈ us, P u) ∧ InRange rnd mask us ∧ List.zipWith (pick rnd) mask us = a := by
  induction mask generalizing a with
  | nil =>
    obtain ⟨h1, _⟩ := ha
    have : a = [] := List.length_eq_zero_iff.mp h1
    exact ⟨[], rfl, by simp, trivial, by simp [this]⟩
  | cons row mask ih =>
    obtain ⟨h1, h2⟩ := ha
    cases a with
    | nil => simp at h1
    | cons x a =>
      obtain ⟨us, e1, e2, e3, e4⟩ := ih (fun r hr => hm r (by simp [hr])) a ⟨by simpa using h1, fun k y hy => h2 (k + 1) y hy⟩
      obtain ⟨r, hr, hx⟩ := h2 0 x rfl
      simp only [List.getElem?_cons_zero, Option.some.injEq] at hr
      subst hr
      obtain ⟨i, hi, he⟩ := List.mem_iff_getElem.mp ((mem_valid row x).mpr hx)
      have hlen := valid_length row
      obtain ⟨u, hP, ho⟩ := h i (row.count true) (by omega) (by rw [← hm row (by simp)]; exact List.count_le_length)
      refine ⟨u :: us, by simp [e1], fun v hv => ?_, ⟨by rw [ho]; omega, by rw [ho]; omega, e3⟩, ?_⟩
      · rcases List.mem_cons.mp hv with rfl | hv
        · exact hP
        · exact e2 v hv
      · rw [List.zipWith_cons_cons, e4, pick, ho, Int.toNat_natCast, List.getD_eq_getElem?_getD, List.getElem?_eq_getElem hi, he]
        rfl

end Verif.Explore
