import Verif.Layer.ShapeLemmas

/-! # Lemmas about the shapes of retrieved tensors -/

namespace Verif.Layer

theorem normAxis_nat {k r : Nat} (h : k < r) : normAxis (k : Int) r = .ok k := by
  unfold normAxis
  dsimp only
  rw [if_neg (show ¬ (k : Int) < 0 by omega), if_neg (by omega)]
  rfl

theorem normAxis_big {k r : Nat} (h : ¬ k < r) : normAxis (k : Int) r = .error .operation := by
  unfold normAxis
  dsimp only
  rw [if_neg (show ¬ (k : Int) < 0 by omega), if_pos (by omega)]

theorem some_map_inj {s t : List Nat} : s.map some = t.map some ↔ s = t :=
  ⟨fun h => by simpa [Function.comp_def] using congrArg (List.map fun d : Dim => d.getD 0) h, fun h => by rw [h]⟩

theorem eraseIdx_map_some (k : Nat) (s : List Nat) : (s.map some).eraseIdx k = (s.eraseIdx k).map some := by
  induction s generalizing k with
  | nil => rfl
  | cons a s ih =>
    cases k with
    | zero => rfl
    | succ k => simp only [List.map_cons, List.eraseIdx_cons_succ, ih]

theorem addDims_known (l : List Nat) : addDims (l.map some) = some l.sum := by
  induction l with
  | nil => rfl
  | cons a l ih => rw [List.map_cons, addDims.eq_def]; dsimp only; rw [ih, List.sum_cons]

theorem eraseIdx_beq (b : Dim) (k : Nat) (s t : List Nat) :
    ((b :: s.map some).eraseIdx (k + 1) == (b :: t.map some).eraseIdx (k + 1)) = (s.eraseIdx k == t.eraseIdx k) := by
  rw [Bool.eq_iff_iff, beq_iff_eq, beq_iff_eq, List.eraseIdx_cons_succ, List.eraseIdx_cons_succ, List.cons.injEq, eraseIdx_map_some, eraseIdx_map_some,
    some_map_inj]
  simp

/-- `tf.concat` along an axis other than the batch axis. -/
theorem tfConcat_nat (k : Nat) (s0 : List Nat) (rest : List (List Nat)) (b : Dim) :
    tfConcat ((k : Int) + 1) ((s0 :: rest).map fun s => b :: s.map some) =
      if k < s0.length then
        if (s0 :: rest).all fun s => s.length == s0.length && s.eraseIdx k == s0.eraseIdx k then
          .ok (b :: (s0.set k ((s0 :: rest).map fun s => s[k]?.getD 0).sum).map some)
        else .error .operation
      else .error .operation := by
  rw [List.map_cons, tfConcat, show (k : Int) + 1 = ((k + 1 : Nat) : Int) by omega]
  by_cases h : k < s0.length
  · rw [if_pos h, normAxis_nat (by simp only [List.length_cons, List.length_map]; omega)]
    dsimp only
    have e : (((b :: s0.map some) :: rest.map fun s => b :: s.map some).all fun s =>
        s.length == (b :: s0.map some).length && s.eraseIdx (k + 1) == (b :: s0.map some).eraseIdx (k + 1)) =
        (s0 :: rest).all fun s => s.length == s0.length && s.eraseIdx k == s0.eraseIdx k := by
      rw [← List.map_cons (f := fun s : List Nat => b :: s.map some), List.all_map]
      congr 1
      funext s
      simp only [Function.comp_apply, eraseIdx_beq, List.length_cons, List.length_map]
      congr 1
      rw [Bool.eq_iff_iff, beq_iff_eq, beq_iff_eq]
      omega
    rw [e]
    split
    · rename_i hall
      refine congrArg Except.ok ?_
      rw [List.set_cons_succ, List.map_set, ← List.map_cons (f := fun s : List Nat => b :: s.map some), List.map_map]
      congr 2
      rw [← addDims_known, List.map_map]
      congr 1
      refine List.map_congr_left fun s hs => ?_
      have hlen : s.length = s0.length := by
        have := List.all_eq_true.mp hall s hs
        simp only [Bool.and_eq_true, beq_iff_eq] at this
        exact this.1
      simp only [Function.comp_apply, List.getElem?_cons_succ, List.getElem?_map, List.getElem?_eq_getElem (show k < s.length by omega)]
      rfl
    · rfl
  · rw [if_neg h, normAxis_big (by simp only [List.length_cons, List.length_map]; omega)]

theorem tfStack_nat (k : Nat) (s0 : List Nat) (rest : List (List Nat)) (b : Dim) :
    tfStack ((k : Int) + 1) ((s0 :: rest).map fun s => b :: s.map some) =
      if k ≤ s0.length then
        if rest.all (· == s0) then .ok (b :: (s0.take k ++ (rest.length + 1) :: s0.drop k).map some) else .error .operation
      else .error .operation := by
  rw [List.map_cons, tfStack, show (k : Int) + 1 = ((k + 1 : Nat) : Int) by omega]
  by_cases h : k ≤ s0.length
  · rw [if_pos h, normAxis_nat (by simp only [List.length_cons, List.length_map]; omega)]
    dsimp only
    have e : (rest.map fun s => b :: s.map some).all (· == b :: s0.map some) = rest.all (· == s0) := by
      rw [List.all_map]
      congr 1
      funext s
      rw [Function.comp_apply, Bool.eq_iff_iff, beq_iff_eq, beq_iff_eq, List.cons.injEq, some_map_inj]
      simp
    rw [e]
    split
    · simp
    · rfl
  · rw [if_neg h, normAxis_big (by simp only [List.length_cons, List.length_map]; omega)]

theorem tfReduce_stacked {k c : Nat} {s0 : List Nat} (h : k ≤ s0.length) (b : Dim) :
    tfReduce ((k : Int) + 1) (b :: (s0.take k ++ c :: s0.drop k).map some) = .ok (b :: s0.map some) := by
  rw [tfReduce, show (k : Int) + 1 = ((k + 1 : Nat) : Int) by omega, normAxis_nat (by
    simp only [List.length_cons, List.length_map, List.length_append, List.length_take, List.length_drop]; omega)]
  dsimp only
  rw [List.eraseIdx_cons_succ, eraseIdx_map_some, List.eraseIdx_append_of_length_le (by rw [List.length_take]; omega)]
  have : (s0.take k).length = k := by rw [List.length_take]; omega
  rw [this, Nat.sub_self, List.eraseIdx_zero, List.tail_cons, List.take_append_drop]

theorem computeRetrieve_known (g : Aggregation) (k : Nat) (shapes : List (List Nat)) (s : Shape) (h : computeRetrieve g k shapes none = .ok s) :
    ∃ K : List Nat, ∀ b, computeRetrieve g k shapes b = .ok (b :: K.map some) := by
  match shapes with
  | [] => cases g <;> cases h
  | [s0] => exact ⟨s0, fun b => rfl⟩
  | s0 :: s1 :: rest =>
    unfold computeRetrieve at h ⊢
    cases g <;> dsimp only at h ⊢
    · simp only [tfConcat_nat] at h ⊢
      split at h
      · split at h
        · rename_i h1 h2
          exact ⟨_, fun b => by rw [if_pos h1, if_pos h2]⟩
        · cases h
      · cases h
    · simp only [tfStack_nat] at h ⊢
      by_cases h1 : k ≤ s0.length
      · by_cases h2 : (s1 :: rest).all (· == s0) = true
        · exact ⟨s0, fun b => by rw [if_pos h1, if_pos h2]; exact tfReduce_stacked h1 b⟩
        · rw [if_pos h1, if_neg h2] at h; cases h
      · rw [if_neg h1] at h; cases h
    · simp only [tfStack_nat] at h ⊢
      split at h
      · split at h
        · rename_i h1 h2
          exact ⟨_, fun b => by rw [if_pos h1, if_pos h2]⟩
        · cases h
      · cases h
    · simp only [tfStack_nat] at h ⊢
      by_cases h1 : k ≤ s0.length
      · by_cases h2 : (s1 :: rest).all (· == s0) = true
        · exact ⟨s0, fun b => by rw [if_pos h1, if_pos h2]; exact tfReduce_stacked h1 b⟩
        · rw [if_pos h1, if_neg h2] at h; cases h
      · rw [if_neg h1] at h; cases h

theorem tfConcat_congr {a a' : Int} {s0 : Shape} (h : normAxis a s0.length = normAxis a' s0.length) (l : List Shape) :
    tfConcat a (s0 :: l) = tfConcat a' (s0 :: l) := by
  rw [tfConcat, tfConcat, h]

theorem tfStack_congr {a a' : Int} {s0 : Shape} (h : normAxis a (s0.length + 1) = normAxis a' (s0.length + 1)) (l : List Shape) :
    tfStack a (s0 :: l) = tfStack a' (s0 :: l) := by
  rw [tfStack, tfStack, h]

theorem normAxis_lt {a : Int} {r k : Nat} (h : normAxis a r = .ok k) : k < r := by
  unfold normAxis at h
  dsimp only at h
  generalize (if a < 0 then a + (r : Int) else a) = c at h
  by_cases hc : c < 0 ∨ (r : Int) ≤ c
  · rw [if_pos hc] at h; cases h
  · rw [if_neg hc] at h
    injection h with h
    omega

theorem tfStack_length {a : Int} {s0 : Shape} {l : List Shape} {s : Shape} (h : tfStack a (s0 :: l) = .ok s) : s.length = s0.length + 1 := by
  rw [tfStack] at h
  split at h
  · cases h
  · rename_i k hk
    have := normAxis_lt hk
    split at h
    · cases h
      simp only [List.length_append, List.length_cons, List.length_take, List.length_drop]
      omega
    · cases h

/-- A negative axis is as good as the one it stands for. -/
theorem computeRetrieve_axis {g : Aggregation} {axis : Int} {k : Nat} {s0 s1 : List Nat} {rest : List (List Nat)}
    (h : normAxis (axis + 1) (s0.length + if g = .concat then 1 else 2) = .ok (k + 1)) (b : Dim) :
    computeRetrieve g axis (s0 :: s1 :: rest) b = computeRetrieve g k (s0 :: s1 :: rest) b := by
  have e := h.trans (normAxis_nat (normAxis_lt h)).symm
  rw [Int.natCast_add, Int.cast_ofNat_Int] at e
  have hl : (b :: s0.map some).length = s0.length + 1 := by simp
  have hr : g ≠ .concat → (match tfStack (axis + 1) ((b :: s0.map some) :: (s1 :: rest).map fun s => b :: s.map some) with
      | .error e => Except.error e
      | .ok s => tfReduce (axis + 1) s) = match tfStack ((k : Int) + 1) ((b :: s0.map some) :: (s1 :: rest).map fun s => b :: s.map some) with
      | .error e => .error e
      | .ok s => tfReduce ((k : Int) + 1) s := by
    intro hg
    rw [if_neg hg] at e
    rw [tfStack_congr (a' := (k : Int) + 1) (by rw [hl]; exact e)]
    split
    · rfl
    · rename_i s hs
      rw [tfReduce, tfReduce, tfStack_length hs, hl, e]
  unfold computeRetrieve
  cases g
  · exact tfConcat_congr (by rw [hl]; exact e) _
  · exact hr (by decide)
  · exact tfStack_congr (by rw [hl]; exact e) _
  · exact hr (by decide)

/-- Adding or multiplying tensors along the batch axis. -/
theorem computeRetrieve_batch_eq {g : Aggregation} (hg : g = .sum ∨ g = .product) {axis : Int} {s0 s1 : List Nat} {rest : List (List Nat)}
    (h : normAxis (axis + 1) (s0.length + 2) = .ok 0) (b : Dim) : computeRetrieve g axis (s0 :: s1 :: rest) b =
      if (s1 :: rest).all (· == s0) then .ok (b :: s0.map some) else .error .operation := by
  have e : (List.map (fun s => b :: s.map some) (s1 :: rest)).all (· == b :: s0.map some) = (s1 :: rest).all (· == s0) := by
    rw [List.all_map]
    congr 1
    funext s
    rw [Function.comp_apply, Bool.eq_iff_iff, beq_iff_eq, beq_iff_eq, List.cons.injEq, some_map_inj]
    simp
  have : computeRetrieve g axis (s0 :: s1 :: rest) b =
      match tfStack (axis + 1) ((b :: s0.map some) :: (s1 :: rest).map fun s => b :: s.map some) with
      | .error e => .error e
      | .ok s => tfReduce (axis + 1) s := by
    rcases hg with rfl | rfl <;> rfl
  rw [this, tfStack, show (b :: s0.map some).length + 1 = s0.length + 2 by simp, h]
  dsimp only
  rw [e]
  by_cases hall : (s1 :: rest).all (· == s0) = true
  · rw [if_pos hall, if_pos hall]
    dsimp only
    rw [tfReduce]
    simp only [List.take_zero, List.drop_zero, List.nil_append, List.length_cons, List.length_map, h, List.eraseIdx_zero, List.tail_cons]
  · rw [if_neg hall, if_neg hall]

theorem computeRetrieve_batch {g : Aggregation} (hg : g = .sum ∨ g = .product) {axis : Int} {s0 s1 : List Nat} {rest : List (List Nat)}
    (h : normAxis (axis + 1) (s0.length + 2) = .ok 0) (s : Shape) (hs : computeRetrieve g axis (s0 :: s1 :: rest) none = .ok s) (b : Dim) :
    computeRetrieve g axis (s0 :: s1 :: rest) b = .ok (b :: s0.map some) := by
  have key := fun b => computeRetrieve_batch_eq hg h (s1 := s1) (rest := rest) b
  rw [key] at hs
  split at hs
  · rename_i hall
    rw [key, if_pos hall]
  · cases hs

/-! ### Announced shapes -/

theorem concatShape_eq (pre post : List Nat) (d0 : Nat) (ds : List Nat) :
    concatShape pre.length (pre ++ d0 :: post) ((d0 :: ds).map fun d => pre ++ d :: post) = pre ++ (d0 :: ds).sum :: post := by
  refine List.ext_getElem (by simp [concatShape]) fun n h1 h2 => ?_
  simp only [concatShape, List.getElem_map, List.getElem_range, List.map_map]
  split
  · rename_i e
    have : n = pre.length := by omega
    subst this
    simp [Function.comp_def]
  · rename_i e
    have e : n ≠ pre.length := by omega
    rw [List.getElem?_append, List.getElem_append]
    split
    · rename_i hlt
      rw [List.getElem?_eq_getElem hlt]; rfl
    · obtain ⟨m, hm⟩ : ∃ m, n - pre.length = m + 1 := ⟨n - pre.length - 1, by omega⟩
      simp only [List.length_append, List.length_cons] at h2
      simp only [hm, List.getElem?_cons_succ, List.getElem_cons_succ]
      rw [List.getElem?_eq_getElem (by omega)]; rfl

theorem agreeBut_eq (pre post : List Nat) (d0 d : Nat) : agreeBut pre.length (pre ++ d0 :: post) (pre ++ d :: post) = true := by
  unfold agreeBut
  rw [Bool.and_eq_true, beq_iff_eq, List.all_eq_true]
  refine ⟨by simp, fun n _ => ?_⟩
  rw [Bool.or_eq_true, beq_iff_eq, beq_iff_eq]
  by_cases e : n = pre.length
  · exact .inl (by omega)
  · right
    rw [List.getElem?_append, List.getElem?_append]
    split
    · rfl
    · obtain ⟨m, hm⟩ : ∃ m, n - pre.length = m + 1 := ⟨n - pre.length - 1, by omega⟩
      rw [hm, List.getElem?_cons_succ, List.getElem?_cons_succ]

theorem collectOk_map {α β : Type} {f : α → Except SError β} {g : α → β} {l : List α} (h : ∀ a ∈ l, f a = .ok (g a)) :
    collectOk (l.map f) = .ok (l.map g) := by
  induction l with
  | nil => rfl
  | cons a l ih => rw [List.map_cons, h a (by simp), collectOk, ih fun b hb => h b (by simp [hb])]; rfl

theorem stackShape_eq (pre post : List Nat) (c : Nat) : stackShape pre.length (pre ++ post) c = .ok (pre ++ c :: post) := by
  rw [stackShape, collectOk_map (g := fun n => (pre ++ c :: post)[n]?.getD 0)]
  · refine congrArg Except.ok (List.ext_getElem (by simp; omega) fun n h1 h2 => ?_)
    simp only [List.getElem_map, List.getElem_range, List.getElem?_eq_getElem h2]
    rfl
  · intro n hn
    have hn : n < (pre ++ post).length + 1 := List.mem_range.mp hn
    rw [List.length_append] at hn
    by_cases e : n = pre.length
    · rw [if_pos (by omega), e]; simp
    · rw [if_neg (by omega), List.getElem?_append]
      unfold pyGet
      dsimp only
      by_cases hlt : n < pre.length
      · rw [if_neg (show ¬ (n : Int) > (pre.length : Int) by omega), if_neg (by omega), if_neg (by omega), if_pos hlt,
          show ((n : Int) - 0).toNat = n by omega, List.getElem?_append, if_pos hlt, List.getElem?_eq_getElem hlt]
        rfl
      · obtain ⟨m, hm⟩ : ∃ m, n - pre.length = m + 1 := ⟨n - pre.length - 1, by omega⟩
        rw [if_pos (show (n : Int) > (pre.length : Int) by omega), if_neg (by omega), if_neg (by omega), if_neg hlt,
          show ((n : Int) - 1).toNat = n - 1 by omega, List.getElem?_append, if_neg (by omega), hm, List.getElem?_cons_succ,
          show n - 1 - pre.length = m by omega, List.getElem?_eq_getElem (by omega)]
        rfl

/-- Stacking before the batch: the last axis is announced in its place. -/
theorem stackShape_batch (s : List Nat) (d c : Nat) : stackShape (-1) (s ++ [d]) c = .ok (d :: (s ++ [d])) := by
  rw [stackShape, collectOk_map (g := fun n => (d :: (s ++ [d]))[n]?.getD 0)]
  · refine congrArg Except.ok (List.ext_getElem (by simp) fun n h1 h2 => ?_)
    simp only [List.getElem_map, List.getElem_range, List.getElem?_eq_getElem h2]
    rfl
  · intro n hn
    have hn : n < (s ++ [d]).length + 1 := List.mem_range.mp hn
    rw [if_neg (by omega), if_pos (by omega)]
    unfold pyGet
    dsimp only
    cases n with
    | zero =>
      rw [if_pos (show ((0 : Nat) : Int) - 1 < 0 by omega), List.length_append, List.length_singleton, if_neg (by omega)]
      rw [show (((0 : Nat) : Int) - 1 + ((s.length + 1 : Nat) : Int)).toNat = s.length by omega]
      simp
    | succ n =>
      rw [if_neg (show ¬ ((n + 1 : Nat) : Int) - 1 < 0 by omega), if_neg (by omega), show (((n + 1 : Nat) : Int) - 1).toNat = n by omega, List.getElem?_cons_succ,
        List.getElem?_eq_getElem (by omega)]
      rfl

theorem maxShape_eq (s : List Nat) (m : Nat) : maxShape s (List.replicate (m + 1) s) = s := by
  refine List.ext_getElem (by simp [maxShape]) fun n h1 h2 => ?_
  simp only [maxShape, List.getElem_map, List.getElem_range, List.map_replicate, List.getElem?_eq_getElem h2, Option.getD_some]
  clear h1
  induction m with
  | zero => simp
  | succ m ih => rw [List.replicate_succ, List.foldr_cons, ih, Nat.max_self]

theorem broadcast_self (s : List Nat) : broadcast s s = true := by
  simp [broadcast]

end Verif.Layer
