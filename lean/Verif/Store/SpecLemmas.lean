import Verif.Store.Lemmas

/-! # Lemmas about splitting names -/

namespace Verif.Store

theorem lastSplit_none {c : Char} {s : Name} (h : c ∉ s) : lastSplit c s = none := by
  induction s with
  | nil => rfl
  | cons d s ih =>
    rw [lastSplit, ih (fun e => h (by simp [e]))]
    exact if_neg fun e => h (by simp [e])

theorem lastSplit_append {c : Char} (a : Name) {b : Name} (h : c ∉ b) : lastSplit c (a ++ c :: b) = some (a, b) := by
  induction a with
  | nil => rw [List.nil_append, lastSplit, lastSplit_none h]; simp
  | cons d a ih => rw [List.cons_append, lastSplit, ih]

theorem lastSplit_some {c : Char} {s a b : Name} (h : lastSplit c s = some (a, b)) : s = a ++ c :: b ∧ c ∉ b := by
  induction s generalizing a b with
  | nil => cases h
  | cons d s ih =>
    rw [lastSplit] at h
    split at h
    · rename_i a' b' e
      cases h
      have := ih e
      exact ⟨by rw [this.1]; rfl, this.2⟩
    · rename_i e
      split at h
      · rename_i hd
        cases h
        refine ⟨by rw [hd]; rfl, fun hc => ?_⟩
        have : ∀ s : Name, c ∈ s → lastSplit c s ≠ none := by
          intro s
          induction s with
          | nil => simp
          | cons d s ih =>
            intro hm hn
            rw [lastSplit] at hn
            split at hn
            · cases hn
            · rename_i e
              rcases List.mem_cons.mp hm with rfl | hm
              · simp at hn
              · exact ih hm e
        exact this _ hc e
      · cases h

theorem not_digit_mem {c : Char} (hc : c.isDigit = false) (k : Nat) : c ∉ Nat.toDigits 10 k := by
  intro h
  rw [toDigits_isDigit k c h] at hc; cases hc

theorem allDigits_toDigits (k : Nat) : allDigits (Nat.toDigits 10 k) = true := by
  have h1 : Nat.toDigits 10 k ≠ [] := Nat.toDigits_ne_nil
  have h2 : (Nat.toDigits 10 k).all Char.isDigit = true := List.all_eq_true.mpr (toDigits_isDigit k)
  simp [allDigits, h1, h2]

theorem root_dotless {s : Name} (h : '.' ∉ s) : root s = s := by rw [root, lastSplit_none h]

theorem lastSplit_dots {d : Name} (hd : ∀ c ∈ d, c = '.') {g a b : Name} (hg : '.' ∉ g) (h : lastSplit '.' (d ++ g) = some (a, b)) : a.all (· = '.') = true := by
  obtain ⟨h1, h2⟩ := lastSplit_some h
  rw [List.all_eq_true]
  intro c hc
  rw [decide_eq_true_eq]
  rcases List.append_eq_append_iff.mp h1 with ⟨e, h3, h4⟩ | ⟨e, h3, h4⟩
  · exfalso
    exact hg (by rw [h4]; simp)
  · exact hd c (by rw [h3]; simp [hc])

theorem root_dots {d : Name} (hd : ∀ c ∈ d, c = '.') {g : Name} (hg : '.' ∉ g) : root (d ++ g) = d ++ g := by
  unfold root
  split
  · rfl
  · rename_i a b e
    rw [if_pos (lastSplit_dots hd hg e)]

theorem root_append {a b : Name} (hb : '.' ∉ b) (ha : a.all (· = '.') = false) : root (a ++ '.' :: b) = a := by
  rw [root, lastSplit_append a hb]; simp [ha]

theorem root_length (s : Name) : (root s).length ≤ s.length := by
  unfold root
  split
  · exact Nat.le_refl _
  · rename_i a b e
    split
    · exact Nat.le_refl _
    · rw [(lastSplit_some e).1]; simp

theorem specRead_length (dir : List Name) (s : Name) : (specRead dir s).length ≤ (root s).length + json.length := by
  unfold specRead
  dsimp only
  split
  · simp
  · split
    · simp
    · rename_i a b e
      split
      · rw [(lastSplit_some e).1]; simp
      · simp

end Verif.Store
