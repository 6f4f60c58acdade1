import Verif.Utils.PySpec

/-! # Helper lemmas for structural equality and merging -/

namespace Verif.Utils.Py

variable {A : Type} [DecidableEq A]

mutual
theorem isEqual_same (x y : Val A) (h : isEqual x y = true) (hs : Sized x y) : Same x y := by
  match x, y with
  | .tup xs, .tup ys => exact isEqualZip_same xs ys (by simpa [isEqual] using h) hs
  | .lst xs, .lst ys => exact isEqualZip_same xs ys (by simpa [isEqual] using h) hs
  | .arr xs, .arr ys =>
    have hl : xs.length = ys.length := hs
    simpa [isEqual, arrEq, hl, Same] using h
  | .atom a, .atom b => simpa [isEqual, Same] using h
  | .dct es, .dct fs =>
    simp only [isEqual, Bool.and_eq_true, beq_iff_eq] at h
    exact ⟨h.1, isEqualEnts_same es fs h.2 hs⟩
  | .tup _, .lst _ | .tup _, .arr _ | .tup _, .atom _ | .tup _, .dct _ => simp [isEqual] at h
  | .lst _, .tup _ | .lst _, .arr _ | .lst _, .atom _ | .lst _, .dct _ => simp [isEqual] at h
  | .arr _, .tup _ | .arr _, .lst _ | .arr _, .atom _ | .arr _, .dct _ => simp [isEqual] at h
  | .atom _, .tup _ | .atom _, .lst _ | .atom _, .arr _ | .atom _, .dct _ => simp [isEqual] at h
  | .dct _, .tup _ | .dct _, .lst _ | .dct _, .arr _ | .dct _, .atom _ => simp [isEqual] at h
theorem isEqualZip_same (xs ys : Vals A) (h : isEqualZip xs ys = true) (hs : SizedL xs ys) : SameL xs ys := by
  match xs, ys with
  | .nil, .nil => trivial
  | .nil, .cons .. => exact hs.elim
  | .cons .., .nil => exact hs.elim
  | .cons x xs, .cons y ys =>
    simp only [isEqualZip, Bool.and_eq_true] at h
    exact ⟨isEqual_same x y h.1 hs.1, isEqualZip_same xs ys h.2 hs.2⟩
theorem isEqualEnts_same (es fs : Ents A) (h : isEqualEnts es fs = true) (hs : SizedE es fs) : SameE es fs := by
  match es with
  | .nil => trivial
  | .cons k x es =>
    simp only [isEqualEnts, Bool.and_eq_true] at h
    refine ⟨?_, isEqualEnts_same es fs h.2 hs.2⟩
    have h1 := h.1
    split at h1
    · rename_i y hy; exact ⟨y, hy, isEqual_same x y h1 (hs.1 y hy)⟩
    · simp at h1
end

mutual
theorem same_isEqual (x y : Val A) (h : Same x y) : isEqual x y = true := by
  match x, y with
  | .tup xs, .tup ys => simpa [isEqual] using same_isEqualZip xs ys h
  | .lst xs, .lst ys => simpa [isEqual] using same_isEqualZip xs ys h
  | .arr xs, .arr ys =>
    have hl : xs = ys := h
    subst hl
    simp [isEqual, arrEq]
  | .atom a, .atom b => simpa [isEqual, Same] using h
  | .dct es, .dct fs =>
    simp only [isEqual, Bool.and_eq_true, beq_iff_eq]
    exact ⟨h.1, same_isEqualEnts es fs h.2⟩
  | .tup _, .lst _ | .tup _, .arr _ | .tup _, .atom _ | .tup _, .dct _ => exact h.elim
  | .lst _, .tup _ | .lst _, .arr _ | .lst _, .atom _ | .lst _, .dct _ => exact h.elim
  | .arr _, .tup _ | .arr _, .lst _ | .arr _, .atom _ | .arr _, .dct _ => exact h.elim
  | .atom _, .tup _ | .atom _, .lst _ | .atom _, .arr _ | .atom _, .dct _ => exact h.elim
  | .dct _, .tup _ | .dct _, .lst _ | .dct _, .arr _ | .dct _, .atom _ => exact h.elim
theorem same_isEqualZip (xs ys : Vals A) (h : SameL xs ys) : isEqualZip xs ys = true := by
  match xs, ys with
  | .nil, .nil => rfl
  | .nil, .cons .. => exact h.elim
  | .cons .., .nil => exact h.elim
  | .cons x xs, .cons y ys => simp [isEqualZip, same_isEqual x y h.1, same_isEqualZip xs ys h.2]
theorem same_isEqualEnts (es fs : Ents A) (h : SameE es fs) : isEqualEnts es fs = true := by
  match es with
  | .nil => rfl
  | .cons k x es =>
    obtain ⟨⟨y, hy, hs⟩, h2⟩ := h
    simp [isEqualEnts, hy, same_isEqual x y hs, same_isEqualEnts es fs h2]
end

theorem find_put_same (es : Ents A) (k : String) (v : Val A) : (es.put k v).find k = some v := by
  match es with
  | .nil => simp [Ents.put, Ents.find]
  | .cons j x es =>
    simp only [Ents.put]
    split
    · rename_i h; simp [Ents.find, h]
    · rename_i h; simp [Ents.find, h, find_put_same es k v]

theorem find_put_other (es : Ents A) (k j : String) (v : Val A) (hj : k ≠ j) : (es.put k v).find j = es.find j := by
  match es with
  | .nil => simp [Ents.put, Ents.find, hj]
  | .cons i x es =>
    simp only [Ents.put]
    split
    · rename_i h; subst h; simp [Ents.find, hj]
    · simp only [Ents.find, find_put_other es k j v hj]

/-- What the merged dictionary holds under one name. -/
def combine : Option (Val A) → Option (Val A) → Option (Val A)
  | some a, some b => mergeVal a b
  | some a, none => some a
  | none, b => b

theorem merge_find (t s m : Ents A) (hu : UniqE s) (h : merge t s = some m) (k : String) :
    m.find k = combine (t.find k) (s.find k) := by
  match s with
  | .nil =>
    simp only [merge, Option.some.injEq] at h
    subst h
    simp only [Ents.find]
    cases t.find k <;> rfl
  | .cons j v s =>
    obtain ⟨_, h2, h3⟩ := hu
    simp only [merge] at h
    split at h
    · rename_i hn
      have := merge_find (t.put j v) s m h3 h k
      rw [this]
      by_cases hk : j = k
      · subst hk
        rw [find_put_same, h2, hn]
        simp [combine, Ents.find]
      · rw [find_put_other t j k v hk]
        simp [Ents.find, hk]
    · rename_i old ho
      split at h
      · simp at h
      · rename_i new hm
        have := merge_find (t.put j new) s m h3 h k
        rw [this]
        by_cases hk : j = k
        · subst hk
          rw [find_put_same, h2, ho]
          simp [combine, Ents.find, hm]
        · rw [find_put_other t j k new hk]
          simp [Ents.find, hk]

theorem merge_none (t s : Ents A) (hu : UniqE s) (h : merge t s = none) :
    ∃ k a b, t.find k = some a ∧ s.find k = some b ∧ mergeVal a b = none := by
  match s with
  | .nil => simp [merge] at h
  | .cons j v s =>
    obtain ⟨_, h2, h3⟩ := hu
    have lift : ∀ new, merge (t.put j new) s = none →
        ∃ k a b, t.find k = some a ∧ (Ents.cons j v s).find k = some b ∧ mergeVal a b = none := by
      intro new hn
      obtain ⟨k, a, b, q1, q2, q3⟩ := merge_none (t.put j new) s h3 hn
      have hk : j ≠ k := by rintro rfl; rw [h2] at q2; simp at q2
      rw [find_put_other t j k new hk] at q1
      exact ⟨k, a, b, q1, by simpa [Ents.find, hk] using q2, q3⟩
    simp only [merge] at h
    split at h
    · exact lift v h
    · rename_i old ho
      split at h
      · rename_i hm
        exact ⟨j, old, v, ho, by simp [Ents.find], hm⟩
      · exact lift _ h

theorem merge_some_of (t s m : Ents A) (hu : UniqE s) (h : merge t s = some m) (k : String) (a b : Val A)
    (ha : t.find k = some a) (hb : s.find k = some b) : ∃ c, mergeVal a b = some c ∧ m.find k = some c := by
  have hf := merge_find t s m hu h k
  rw [ha, hb] at hf
  match s with
  | .nil => simp [Ents.find] at hb
  | .cons j v s =>
    obtain ⟨_, h2, h3⟩ := hu
    simp only [merge] at h
    by_cases hk : j = k
    · subst hk
      simp only [ha] at h
      have hv : v = b := by simpa [Ents.find] using hb
      subst hv
      split at h
      · simp at h
      · rename_i new hm
        exact ⟨new, hm, by simpa [combine, hm] using hf⟩
    · have hb' : s.find k = some b := by simpa [Ents.find, hk] using hb
      split at h
      · obtain ⟨c, c1, c2⟩ := merge_some_of (t.put j v) s m h3 h k a b (by rw [find_put_other t j k v hk]; exact ha) hb'
        exact ⟨c, c1, c2⟩
      · split at h
        · simp at h
        · obtain ⟨c, c1, c2⟩ := merge_some_of (t.put j _) s m h3 h k a b (by rw [find_put_other t j k _ hk]; exact ha) hb'
          exact ⟨c, c1, c2⟩

theorem uniq_find (es : Ents A) (hu : UniqE es) (k : String) (x : Val A) (h : es.find k = some x) : Uniq x := by
  match es with
  | .nil => simp [Ents.find] at h
  | .cons j y es =>
    simp only [Ents.find] at h
    split at h
    · simp only [Option.some.injEq] at h; subst h; exact hu.1
    · exact uniq_find es hu.2.2 k x h

/-- Merging two values that are not both dictionaries. -/
theorem mergeVal_plain (a b c : Val A) (h : mergeVal a b = some c) (ha : a.isDict = false) :
    c = a ∧ b.isDict = false ∧ Agree a b := by
  cases b with
  | dct src => cases a <;> simp_all [mergeVal, Val.isDict]
  | _ => cases a <;> simp [mergeVal, Val.isDict, Val.elems, Agree, pyEq] at h ha ⊢ <;> grind

theorem mergeVal_dict (t : Ents A) (b c : Val A) (h : mergeVal (.dct t) b = some c) :
    ∃ s m, b = .dct s ∧ c = .dct m ∧ merge t s = some m := by
  cases b with
  | dct src =>
    simp only [mergeVal, Option.map_eq_some_iff] at h
    obtain ⟨m, h1, h2⟩ := h
    exact ⟨src, m, rfl, h2.symm, h1⟩
  | _ => simp [mergeVal] at h

theorem at_plain (a : Val A) (ha : a.isDict = false) (k : String) (p : List String) : a.at (k :: p) = none := by
  cases a <;> simp_all [Val.at, Val.isDict]

theorem conflict_none (a b : Val A) (h : Conflict a b) : mergeVal a b = none := by
  cases hm : mergeVal a b with
  | none => rfl
  | some c =>
    exfalso
    cases hd : a.isDict with
    | false =>
      obtain ⟨_, h2, h3⟩ := mergeVal_plain a b c hm hd
      rcases h with h | ⟨_, _, h⟩
      · rw [hd, h2] at h; exact h rfl
      · exact h h3
    | true =>
      cases a with
      | dct t =>
        obtain ⟨s, m, rfl, _, _⟩ := mergeVal_dict t b c hm
        rcases h with h | ⟨h, _, _⟩
        · exact h rfl
        · simp [Val.isDict] at h
      | _ => simp [Val.isDict] at hd

theorem none_conflict_plain (a b : Val A) (h : mergeVal a b = none) (hd : a.isDict = false ∨ b.isDict = false) :
    Conflict a b := by
  unfold Conflict
  cases b with
  | dct src => cases a <;> simp_all [Val.isDict]
  | _ => cases a <;> simp_all [mergeVal, Val.isDict, Val.elems, Agree]

mutual
theorem none_conflict (a b : Val A) (hu : Uniq b) (h : mergeVal a b = none) :
    ∃ p x y, a.at p = some x ∧ b.at p = some y ∧ Conflict x y := by
  match a, b with
  | .dct t, .dct s =>
    simp only [mergeVal, Option.map_eq_none_iff] at h
    obtain ⟨k, p, x, y, h1, h2, h3⟩ := none_conflictE t s hu h
    exact ⟨k :: p, x, y, h1, h2, h3⟩
  | a, .atom v => exact ⟨[], a, _, by simp [Val.at], rfl, none_conflict_plain _ _ h (.inr rfl)⟩
  | a, .arr v => exact ⟨[], a, _, by simp [Val.at], rfl, none_conflict_plain _ _ h (.inr rfl)⟩
  | a, .tup v => exact ⟨[], a, _, by simp [Val.at], rfl, none_conflict_plain _ _ h (.inr rfl)⟩
  | a, .lst v => exact ⟨[], a, _, by simp [Val.at], rfl, none_conflict_plain _ _ h (.inr rfl)⟩
  | .atom v, .dct s => exact ⟨[], _, _, rfl, by simp [Val.at], none_conflict_plain _ _ h (.inl rfl)⟩
  | .arr v, .dct s => exact ⟨[], _, _, rfl, by simp [Val.at], none_conflict_plain _ _ h (.inl rfl)⟩
  | .tup v, .dct s => exact ⟨[], _, _, rfl, by simp [Val.at], none_conflict_plain _ _ h (.inl rfl)⟩
  | .lst v, .dct s => exact ⟨[], _, _, rfl, by simp [Val.at], none_conflict_plain _ _ h (.inl rfl)⟩

theorem none_conflictE (t s : Ents A) (hu : UniqE s) (h : merge t s = none) :
    ∃ k p x y, (Val.dct t).at (k :: p) = some x ∧ (Val.dct s).at (k :: p) = some y ∧ Conflict x y := by
  match s with
  | .nil => simp [merge] at h
  | .cons j v s =>
    obtain ⟨h1, h2, h3⟩ := hu
    have lift : ∀ new, merge (t.put j new) s = none → ∃ k p x y,
        (Val.dct t).at (k :: p) = some x ∧ (Val.dct (.cons j v s)).at (k :: p) = some y ∧ Conflict x y := by
      intro new hn
      obtain ⟨k, p, x, y, q1, q2, q3⟩ := none_conflictE (t.put j new) s h3 hn
      have hk : j ≠ k := by rintro rfl; simp [Val.at, h2] at q2
      refine ⟨k, p, x, y, ?_, ?_, q3⟩
      · simpa [Val.at, find_put_other t j k new hk] using q1
      · simpa [Val.at, Ents.find, hk] using q2
    simp only [merge] at h
    split at h
    · exact lift v h
    · rename_i old ho
      split at h
      · rename_i hm
        obtain ⟨p, x, y, q1, q2, q3⟩ := none_conflict old v h1 hm
        exact ⟨j, p, x, y, by simpa [Val.at, ho] using q1, by simpa [Val.at, Ents.find] using q2, q3⟩
      · exact lift _ h
end

theorem conflict_raises (p : List String) (a b : Val A) (hu : Uniq b) (x y : Val A) (ha : a.at p = some x)
    (hb : b.at p = some y) (hc : Conflict x y) : mergeVal a b = none := by
  induction p generalizing a b with
  | nil =>
    simp only [Val.at, Option.some.injEq] at ha hb
    subst ha hb
    exact conflict_none _ _ hc
  | cons k p ih =>
    cases a with
    | dct t =>
      cases b with
      | dct s =>
        simp only [Val.at] at ha hb
        split at ha
        · rename_i a' ha'
          split at hb
          · rename_i b' hb'
            have hn := ih a' b' (uniq_find s hu k b' hb') ha hb
            simp only [mergeVal, Option.map_eq_none_iff]
            cases hm : merge t s with
            | none => rfl
            | some m =>
              obtain ⟨c, hc', _⟩ := merge_some_of t s m hu hm k a' b' ha' hb'
              rw [hn] at hc'; simp at hc'
          · simp at hb
        · simp at ha
      | _ => simp [Val.at] at hb
    | _ => simp [Val.at] at ha

theorem keeps_target (p : List String) (a b c : Val A) (hu : Uniq b) (h : mergeVal a b = some c) (v : Val A)
    (ha : a.at p = some v) (hv : v.isDict = false) : c.at p = some v := by
  induction p generalizing a b c with
  | nil =>
    simp only [Val.at, Option.some.injEq] at ha
    subst ha
    rw [(mergeVal_plain _ b c h hv).1]; simp [Val.at]
  | cons k p ih =>
    cases a with
    | dct t =>
      obtain ⟨s, m, rfl, rfl, hm⟩ := mergeVal_dict t b c h
      simp only [Val.at] at ha ⊢
      split at ha
      · rename_i a' ha'
        cases hs : s.find k with
        | none =>
          have := merge_find t s m hu hm k
          rw [ha', hs] at this
          simp only [combine] at this
          rw [this]; exact ha
        | some b' =>
          obtain ⟨c', q1, q2⟩ := merge_some_of t s m hu hm k a' b' ha' hs
          rw [q2]
          exact ih a' b' c' (uniq_find s hu k b' hs) q1 ha
      · simp at ha
    | _ => simp [Val.at] at ha

theorem keeps_source (p : List String) (a b c : Val A) (hu : Uniq b) (h : mergeVal a b = some c) (v : Val A)
    (hb : b.at p = some v) (hv : v.isDict = false) :
    ∃ w, c.at p = some w ∧ (w = v ∨ (a.at p = some w ∧ Agree w v)) := by
  induction p generalizing a b c with
  | nil =>
    simp only [Val.at, Option.some.injEq] at hb
    subst hb
    cases hd : a.isDict with
    | false =>
      obtain ⟨h1, _, h3⟩ := mergeVal_plain a b c h hd
      subst h1
      exact ⟨c, by simp [Val.at], .inr ⟨by simp [Val.at], h3⟩⟩
    | true =>
      cases a with
      | dct t =>
        obtain ⟨s, m, rfl, _, _⟩ := mergeVal_dict t b c h
        simp [Val.isDict] at hv
      | _ => simp [Val.isDict] at hd
  | cons k p ih =>
    cases b with
    | dct s =>
      cases a with
      | dct t =>
        obtain ⟨s', m, hs', rfl, hm⟩ := mergeVal_dict t _ c h
        cases hs'
        simp only [Val.at] at hb ⊢
        split at hb
        · rename_i b' hb'
          cases ht : t.find k with
          | none =>
            have := merge_find t s m hu hm k
            rw [ht, hb'] at this
            simp only [combine] at this
            rw [this]
            exact ⟨v, hb, .inl rfl⟩
          | some a' =>
            obtain ⟨c', q1, q2⟩ := merge_some_of t s m hu hm k a' b' ht hb'
            rw [q2]
            exact ih a' b' c' (uniq_find s hu k b' hb') q1 hb
        · simp at hb
      | _ => simp [mergeVal] at h
    | _ => simp [Val.at] at hb

theorem origin (p : List String) (a b c : Val A) (hu : Uniq b) (h : mergeVal a b = some c) (v : Val A)
    (hc : c.at p = some v) (hv : v.isDict = false) : a.at p = some v ∨ b.at p = some v := by
  induction p generalizing a b c with
  | nil =>
    simp only [Val.at, Option.some.injEq] at hc
    subst hc
    cases hd : a.isDict with
    | false => left; rw [(mergeVal_plain a b c h hd).1]; simp [Val.at]
    | true =>
      cases a with
      | dct t =>
        obtain ⟨s, m, _, rfl, _⟩ := mergeVal_dict t b c h
        simp [Val.isDict] at hv
      | _ => simp [Val.isDict] at hd
  | cons k p ih =>
    cases a with
    | dct t =>
      obtain ⟨s, m, rfl, rfl, hm⟩ := mergeVal_dict t b c h
      have hf := merge_find t s m hu hm k
      simp only [Val.at] at hc ⊢
      split at hc
      · rename_i c' hc'
        cases ht : t.find k with
        | none =>
          rw [ht, hc'] at hf
          simp only [combine] at hf
          right; rw [← hf]; exact hc
        | some a' =>
          cases hs : s.find k with
          | none =>
            rw [ht, hs, hc'] at hf
            simp only [combine, Option.some.injEq] at hf
            subst hf
            left; exact hc
          | some b' =>
            obtain ⟨c'', q1, q2⟩ := merge_some_of t s m hu hm k a' b' ht hs
            rw [hc'] at q2
            cases q2
            exact ih a' b' c' (uniq_find s hu k b' hs) q1 hc
      · simp at hc
    | _ =>
      have hp := (mergeVal_plain _ b c h rfl).1
      subst hp
      simp [Val.at] at hc

end Verif.Utils.Py
