import Verif.Resolve.Import

/-! # Helper lemmas for module paths -/

namespace Verif.Resolve

theorem rsplitList_none (cs : List Char) : rsplitList cs = none ↔ '.' ∉ cs := by
  induction cs with
  | nil => simp [rsplitList]
  | cons c cs ih =>
    simp only [rsplitList]
    split
    · rename_i m n h
      have : '.' ∈ cs := by
        have h1 := mt ih.2
        rw [h] at h1
        simpa using h1
      simp [this]
    · rename_i h
      have := ih.1 h
      split
      · rename_i e; simp [e]
      · rename_i e; simp [this, Ne.symm e]

theorem rsplitList_append (m n : List Char) (h : '.' ∉ n) : rsplitList (m ++ '.' :: n) = some (m, n) := by
  induction m with
  | nil => simp [rsplitList, (rsplitList_none n).2 h]
  | cons c m ih => simp [rsplitList, ih]

theorem rsplitList_some (cs m n : List Char) (h : rsplitList cs = some (m, n)) : cs = m ++ '.' :: n := by
  induction cs generalizing m with
  | nil => simp [rsplitList] at h
  | cons c cs ih =>
    simp only [rsplitList] at h
    split at h
    · rename_i m' n' h'
      simp only [Option.some.injEq, Prod.mk.injEq] at h
      obtain ⟨rfl, rfl⟩ := h
      rw [ih m' h']
      rfl
    · split at h
      · rename_i e
        simp only [Option.some.injEq, Prod.mk.injEq] at h
        obtain ⟨rfl, rfl⟩ := h
        simp [e]
      · simp at h

theorem rsplit_append (m n : String) (h : '.' ∉ n.toList) : rsplit (m ++ "." ++ n) = some (m, n) := by
  have : (m ++ "." ++ n).toList = m.toList ++ '.' :: n.toList := by simp
  simp [rsplit, this, rsplitList_append m.toList n.toList h]

theorem rsplit_some (s m n : String) (h : rsplit s = some (m, n)) : s = m ++ "." ++ n := by
  simp only [rsplit, Option.map_eq_some_iff, Prod.mk.injEq, Prod.exists] at h
  obtain ⟨a, b, h1, rfl, rfl⟩ := h
  have := rsplitList_some _ _ _ h1
  apply String.toList_injective
  simp [this]

theorem mem_classesOf (L : Library) (parent : Nat) (content : List (String × Obj)) (c : Nat) :
    c ∈ classesOf L parent content ↔ (∃ n, (n, Obj.cls c) ∈ content) ∧ L.sub c parent = true := by
  simp only [classesOf, List.mem_filterMap, Prod.exists]
  constructor
  · rintro ⟨n, o, h, h1⟩
    cases o with
    | other => simp at h1
    | cls d =>
      simp only at h1
      split at h1
      · simp only [Option.some.injEq] at h1; subst h1; exact ⟨⟨n, h⟩, by assumption⟩
      · simp at h1
  · rintro ⟨⟨n, h⟩, h1⟩
    exact ⟨n, .cls c, h, by simp [h1]⟩

theorem filter_mem (L : Library) (cs : List Nat) (c : Nat) (h : c ∈ filterClasses L cs) : c ∈ cs := by
  unfold filterClasses at h
  split at h
  · exact (List.mem_filter.1 h).1
  · exact h

theorem filter_singleton (L : Library) (cs : List Nat) (c x : Nat) (h : filterClasses L cs = [c]) (hx : x ∈ cs) (hne : x ≠ c) :
    ∀ y ∈ cs, L.sub y x = true := by
  unfold filterClasses at h
  split at h
  · have : x ∉ cs.filter fun c => !(cs.all fun x => L.sub x c) := by rw [h]; simpa using hne
    simpa [List.mem_filter, hx] using this
  · rw [h] at hx; simp at hx; exact absurd hx hne

end Verif.Resolve
