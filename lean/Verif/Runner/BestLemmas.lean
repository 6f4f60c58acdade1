import Verif.Runner.Best

namespace Verif.Runner.Best

/-- Number `k` is the first of the largest scores. -/
def FirstBest (l : List Rat) (k : Nat) : Prop := ∃ b, l[k]? = some b ∧ (∀ (j : Nat) x, l[j]? = some x → x ≤ b) ∧ ∀ (j : Nat) x, l[j]? = some x → j < k → x < b

theorem run_snoc (l : List Score) (x : Score) : run (l ++ [x]) = step (run l) x := by simp [run]

theorem getElem?_snoc {α : Type} (l : List α) (x y : α) (j : Nat) : (l ++ [x])[j]? = some y ↔ l[j]? = some y ∨ (j = l.length ∧ x = y) := by
  rw [List.getElem?_append]
  split
  case isTrue h => constructor
                   · exact .inl
                   · rintro (h' | h')
                     · exact h'
                     · omega
  case isFalse h =>
    have hn : l[j]? = none := List.getElem?_eq_none (by omega)
    rw [hn]
    by_cases hj : j = l.length
    · simp [hj]
    · have : ([x] : List α)[j - l.length]? = none := List.getElem?_eq_none (by simp; omega)
      rw [this]
      simp [hj]

/-- Invariant of comparing scores. -/
structure Inv (l : List Rat) (s : State) : Prop where
  count : s.evaluations = l.length
  none : l = [] → s.best = none ∧ s.saved = none
  best : l ≠ [] → ∃ k b, s.best = some (some b) ∧ l[k]? = some b ∧ FirstBest l k ∧ s.saved = if k = 0 then Option.none else some k

theorem step_inv (l : List Rat) (s : State) (x : Rat) (h : Inv l s) : Inv (l ++ [x]) (step s (some x)) := by
  by_cases hl : l = []
  · subst hl
    have := h.none rfl
    unfold step
    rw [this.1]
    refine ⟨by simp [h.count], fun h => by simp at h, fun _ => ⟨0, x, rfl, rfl, ⟨x, rfl, ?_, ?_⟩, this.2⟩⟩
    · intro j y hy
      rw [getElem?_snoc] at hy
      rcases hy with hy | hy
      · simp at hy
      · rw [hy.2]; exact Rat.le_refl
    · intro j y _ hj; omega
  · obtain ⟨k, b, hb, hk, ⟨b', hb', hmax, hfirst⟩, hsav⟩ := h.best hl
    have : b' = b := by rw [hk] at hb'; exact (Option.some.inj hb').symm
    subst this
    unfold step
    rw [hb]
    dsimp only
    have hpos : 0 < l.length := List.length_pos_iff.mpr hl
    by_cases hlt : b' < x
    · rw [if_pos (show gt (some x) (some b') = true by simpa [gt] using hlt)]
      refine ⟨by simp [h.count], fun h => by simp at h, fun _ => ⟨l.length, x, rfl, by simp, ⟨x, by simp, ?_, ?_⟩, ?_⟩⟩
      · intro j y hy
        rw [getElem?_snoc] at hy
        rcases hy with hy | hy
        · have := hmax j y hy; grind
        · rw [hy.2]; exact Rat.le_refl
      · intro j y hy hj
        rw [getElem?_snoc] at hy
        rcases hy with hy | hy
        · have := hmax j y hy; grind
        · omega
      · rw [if_neg (by omega), h.count]
    · rw [if_neg (show ¬ gt (some x) (some b') = true by simpa [gt] using hlt)]
      refine ⟨by simp [h.count], fun h => by simp at h, fun _ => ⟨k, b', rfl, ?_, ⟨b', ?_, ?_, ?_⟩, hsav⟩⟩
      · rw [getElem?_snoc]; exact .inl hk
      · rw [getElem?_snoc]; exact .inl hk
      · intro j y hy
        rw [getElem?_snoc] at hy
        rcases hy with hy | hy
        · exact hmax j y hy
        · rw [← hy.2]; exact Rat.not_lt.mp hlt
      · intro j y hy hj
        rw [getElem?_snoc] at hy
        rcases hy with hy | hy
        · exact hfirst j y hy hj
        · have : k < l.length := by
            rcases Nat.lt_or_ge k l.length with h | h
            · exact h
            · rw [List.getElem?_eq_none h] at hk; cases hk
          omega

theorem run_inv (l : List Rat) : Inv l (run (l.map some)) := by
  have key : ∀ (r p : List Rat) (s : State), Inv p s → Inv (p ++ r) ((r.map some).foldl step s) := by
    intro r
    induction r with
    | nil => intro p s h; simpa using h
    | cons x r ih => intro p s h; have := ih (p ++ [x]) _ (step_inv p s x h); simpa using this
  exact key l [] init ⟨rfl, fun _ => ⟨rfl, rfl⟩, fun h => absurd rfl h⟩

theorem firstBest_unique {l : List Rat} {j k : Nat} (hj : FirstBest l j) (hk : FirstBest l k) : j = k := by
  obtain ⟨a, ha, ha1, ha2⟩ := hj
  obtain ⟨b, hb, hb1, hb2⟩ := hk
  rcases Nat.lt_trichotomy j k with h | h | h
  · have := hb2 j a ha h; have := ha1 k b hb; grind
  · exact h
  · have := ha2 k b hb h; have := hb1 j a ha; grind

end Verif.Runner.Best
