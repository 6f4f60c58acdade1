import Verif.Gym.Create
import Verif.Gym.Action

/-! # Which version is used or registered -/

namespace Verif.Gym

theorem freshName_next {reg : Registry} {base : Name} {n : Nat} : ∃ m, n < m ∧
    freshName reg (base ++ (dashV ++ digits n)) = .ok (base ++ (dashV ++ digits m)) ∧
    (∀ k, n < k → k < m → (look (base ++ (dashV ++ digits k)) reg).isSome = true) := by
  obtain ⟨w, h1, h2, -, h4⟩ := fresh_ok (base ++ dashV) (reg.length + 1) reg (n + 1) (by omega)
  refine ⟨w, by omega, ?_, fun k hk hw => ?_⟩
  · rw [freshName, rsplit_append (digits_isDigit n)]
    dsimp only
    rw [parseNat_digits]
    dsimp only
    rw [← List.append_assoc]
    exact h2
  · rw [← List.append_assoc]
    exact h4 k (by omega) hw

theorem create_next {reg : Registry} {base : Name} {n : Nat} {level : Name} {steps steps' : Steps} {threshold : Option Rat} {c : Created}
    (hf : findLevel reg level steps = .ok (base ++ (dashV ++ digits n), steps')) (h : createLevel reg level steps threshold = .ok c) :
    c.id = base ++ (dashV ++ digits n) ∨ ∃ m, n < m ∧ c.id = base ++ (dashV ++ digits m) ∧
      ∀ k, n < k → k < m → (look (base ++ (dashV ++ digits k)) reg).isSome = true := by
  rw [createLevel, hf] at h
  dsimp only at h
  split at h
  · cases h
  · obtain ⟨m, h1, h2, h3⟩ := freshName_next (reg := reg) (base := base) (n := n)
    split at h
    · rw [h2] at h
      cases h
      exact .inr ⟨m, h1, rfl, h3⟩
    · cases h
      exact .inl rfl

theorem find_zero {reg : Registry} {level : Name} (hl : look level reg = none) {r : Reg} (hz : look (level ++ versionZero) reg = some r)
    {k : Nat} (hk : r.steps = some k) : findLevel reg level (.limit k) = .ok (level ++ versionZero, .limit k) := by
  have e : level ++ versionZero = level ++ (dashV ++ digits 0) := rfl
  rw [findLevel.eq_def, hl, hz]
  simp only [Option.isSome_none, Bool.false_eq_true, if_false, Option.isSome_some, if_true]
  have e' : (if Steps.limit k = Steps.unset then Steps.off else Steps.limit k) = Steps.limit k := rfl
  rw [e', search, e, rsplit_append (digits_isDigit 0)]
  dsimp only
  rw [if_pos rfl, ← e, hz]
  dsimp only
  rw [if_neg (by simp), hk, if_neg (by simp [Steps.same])]

end Verif.Gym
