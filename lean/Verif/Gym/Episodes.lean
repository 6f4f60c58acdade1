import Verif.Gym.LevelSpec

/-! # Lemmas about the end of episodes -/

namespace Verif.Gym

theorem episode_ok {limit : Option Nat} {bonus : Rat} : ∀ {steps : List (Bool × Rat)} {t : Nat}, (∀ n, limit = some n → t < n ∨ steps = []) →
    oneEpisode limit t steps = true → noTie limit t steps = true →
    episode limit bonus t (limited limit t steps) = .ok (expected limit bonus t steps)
  | [], _, _, _, _ => rfl
  | (own, reward) :: rest, t, hl, h1, h2 => by
    have hl' : ∀ n, limit = some n → t < n := fun n hn => (hl n hn).resolve_right (by simp)
    simp only [noTie, Bool.and_eq_true, Bool.not_eq_true', Bool.and_eq_false_iff, decide_eq_false_iff_not] at h2
    have hrest : (∀ n, limit = some n → t + 1 < n ∨ rest = []) ∧ oneEpisode limit (t + 1) rest = true := by
      cases rest with
      | nil => exact ⟨fun n hn => .inr rfl, rfl⟩
      | cons y rest =>
        simp only [oneEpisode, Bool.and_eq_true, decide_eq_true_eq] at h1
        refine ⟨fun n hn => .inl ?_, h1.2⟩
        have := hl' n hn
        have hne : n ≠ t + 1 := fun e => h1.1.2 (by rw [hn, e])
        omega
    rw [limited, expected, episode, episode_ok hrest.1 hrest.2 h2.2]
    have hc : classify limit bonus (t + 1) (own || decide (limit = some (t + 1))) reward =
        .ok (if own = true then (1, reward + bonus) else if limit = some (t + 1) then (2, reward) else (0, reward)) := by
      rw [classify.eq_def]
      by_cases e : limit = some (t + 1)
      · have ho : own = false := h2.1.resolve_right (fun h => h e)
        simp [e, ho]
      · rw [if_neg e]
        cases own with
        | false => simp [e]
        | true =>
          simp only [Bool.true_or, if_true]
          cases hm : limit with
          | none => rfl
          | some n =>
            have := hl' n hm
            have hne : n ≠ t + 1 := fun h => e (by rw [hm, h])
            dsimp only
            rw [if_pos (by omega)]
    rw [hc]

end Verif.Gym
