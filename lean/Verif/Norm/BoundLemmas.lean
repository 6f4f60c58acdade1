import Verif.Norm.LinearLemmas

/-!
# Linear normalization: unified bounds, lemmas
-/

namespace Verif.Norm

variable {K : Type} [Field K] [LinearOrder K]

omit [Field K] in
theorem larger (a b : Ext K) : Larger a b (Ext.max a b) := by
  unfold Ext.max
  cases a with
  | bot => cases b <;> exact .botL
  | top => cases b <;> exact .topL
  | fin x =>
    cases b with
    | bot => exact .botR
    | top => exact .topR
    | fin y =>
      show Larger _ _ (if decide (x < y) = true then _ else _)
      split
      · rename_i h; exact .fin (Or.inr rfl) (le_of_lt (of_decide_eq_true h)) (le_refl _)
      · rename_i h; exact .fin (Or.inl rfl) (le_refl _) (not_lt.1 (fun h' => h (decide_eq_true h')))

omit [Field K] in
theorem smaller (a b : Ext K) : Smaller a b (Ext.min a b) := by
  unfold Ext.min
  cases a with
  | bot => cases b <;> exact .botL
  | top => cases b <;> exact .topL
  | fin x =>
    cases b with
    | bot => exact .botR
    | top => exact .topR
    | fin y =>
      show Smaller _ _ (if decide (y < x) = true then _ else _)
      split
      · rename_i h; exact .fin (Or.inr rfl) (le_of_lt (of_decide_eq_true h)) (le_refl _)
      · rename_i h; exact .fin (Or.inl rfl) (le_refl _) (not_lt.1 (fun h' => h (decide_eq_true h')))

omit [Field K] in
theorem larger_unique {a b c d : Ext K} (h : Larger a b c) (h' : Larger a b d) : c = d := by
  cases h with
  | fin h1 h2 h3 =>
    cases h' with
    | fin h4 h5 h6 =>
      congr 1
      rcases h1 with e | e <;> rcases h4 with e' | e' <;> subst e <;> subst e'
      · rfl
      · exact le_antisymm h5 h3
      · exact le_antisymm h6 h2
      · rfl
  | botL => cases h' <;> rfl
  | botR => cases h' <;> rfl
  | topL => cases h' <;> rfl
  | topR => cases h' <;> rfl

/-- The input specification of the layer. -/
theorem linear_input {eps : K} {g1 g2 : Option (Bnd K)} {input : Range K} {l : Linear K} (h : linear eps g1 g2 input = .ok l) :
    l.input = ⟨input.size, unifyMin (some l.min) input.min, unifyMax (some l.max) input.max⟩ := by
  obtain ⟨mn, h1, h⟩ := bind_ok h
  obtain ⟨mx, h2, h⟩ := bind_ok h
  split at h
  case isFalse => cases h
  case isTrue hall =>
    obtain ⟨own, h3, h⟩ := bind_ok h
    obtain ⟨spec, h4, h⟩ := bind_ok h
    cases h
    rw [makeRange_both] at h3
    split at h3
    case isFalse => cases h3
    case isTrue =>
      cases h3
      unfold unify at h4
      dsimp only at h4
      obtain ⟨x, hx⟩ : ∃ x, unifyMin (some mn) input.min = some x := by
        cases input.min <;> exact ⟨_, rfl⟩
      obtain ⟨y, hy⟩ : ∃ y, unifyMax (some mx) input.max = some y := by
        cases input.max <;> exact ⟨_, rfl⟩
      rw [hx, hy] at h4
      dsimp only at h4
      split at h4
      case isFalse => cases h4
      case isTrue =>
        rw [makeRange_both] at h4
        split at h4
        case isFalse => cases h4
        case isTrue =>
          cases h4
          rw [hx, hy]

omit [Field K] in
theorem unifyMin_entry {n i : Nat} {mn m m' : Bnd K} (c1 : Complete n mn) (c2 : Complete n m) (hi : i < n)
    (h : unifyMin (some mn) (some m) = some m') :
    Complete n m' ∧ ((∃ a b, mn = .one a ∧ m = .one b) → Larger (mn.entry i) (m.entry i) (m'.entry i)) ∧
      ((∃ l, mn = .each l ∨ m = .each l) → Smaller (mn.entry i) (m.entry i) (m'.entry i)) := by
  have h := Option.some.inj h
  split at h
  · rename_i ha
    subst h
    refine ⟨zip_complete c1 c2, ?_, fun _ => by rw [zip_entry c1 c2 hi]; exact smaller _ _⟩
    rintro ⟨a, b, rfl, rfl⟩
    cases ha
  · rename_i ha
    subst h
    refine ⟨zip_complete c1 c2, fun _ => by rw [zip_entry c1 c2 hi]; exact larger _ _, ?_⟩
    rintro ⟨l, rfl | rfl⟩
    · exact absurd rfl ha
    · exact absurd (Bool.or_true _) ha

end Verif.Norm
