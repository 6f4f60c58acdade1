import Verif.Family.PlaceLemmas

/-! # Lemmas about accepted arguments and the default of `buffer_observe` -/

namespace Verif.Family

theorem params_required (k : Kind) : ∀ p ∈ params k, p.2 = none → p.1 ∈ required k := by
  cases k <;>
  simp [required, params, dqnParams, dpgParams, acParams, a2cParams, vpgParams, trpoParams, ppoParams, commonParams, opt, req]

theorem missing_of (k : Kind) (args : Args) (h : ∀ n ∈ required k, (args.lookup n).isSome = true) : missing k args = none := by
  unfold missing
  rw [Option.map_eq_none_iff, List.find?_eq_none]
  intro p hp hx
  simp only [Bool.and_eq_true, Option.isNone_iff_eq_none] at hx
  have := h p.1 (params_required k p hp hx.1)
  rw [← find_eq_lookup, hx.2] at this
  cases this

theorem extra_of (k : Kind) (args : Args) (h : ∀ p ∈ args, ((defaults k).lookup p.1).isSome = true) : extra k args = [] := by
  unfold extra
  rw [List.filter_eq_nil_iff]
  intro p hp hx
  have := documented k p.1 (h p hp)
  simp [this] at hx

theorem isNone_iff (v : Val) : v.isNone = true ↔ v = .none := by cases v <;> simp [Val.isNone]

/-- Conditions under which the arguments are passed on. -/
theorem handed_ok (k : Kind) (e : Env)
    (hb : HasBaseline k → (e "baseline" = .none ↔ e "baseline_optimizer" = .none) ∧
      (e "baseline" = .none → (e "predict_terminal_values").truthy = false)) : ∃ h, handed k e = .ok h := by
  have key : HasBaseline k → ∀ o ob, ∃ h, gradientArgs o ob e = .ok h := by
    intro hk o ob
    obtain ⟨h1, h2⟩ := hb hk
    unfold gradientArgs
    by_cases hx : e "baseline" = .none
    · have ho := h1.1 hx
      simp only [hx, ho, h2 hx, show Val.none.isNone = true from rfl, if_true, Bool.false_eq_true, if_false, Bool.not_true]
      exact ⟨_, rfl⟩
    · have ho : e "baseline_optimizer" ≠ .none := fun q => hx (h1.2 q)
      have hx' : (e "baseline").isNone = false := by
        rw [← Bool.not_eq_true, isNone_iff]; exact hx
      have ho' : (e "baseline_optimizer").isNone = false := by
        rw [← Bool.not_eq_true, isNone_iff]; exact ho
      simp only [hx', ho', Bool.false_eq_true, if_false]
      exact ⟨_, rfl⟩
  cases k with
  | tensorforce | constant | random | dqn | doubleDqn | duelingDqn | dpg | ac | a2c => exact ⟨_, rfl⟩
  | vpg => exact key (.inl rfl) _ _
  | trpo => exact key (.inr (.inl rfl)) _ _
  | ppo => exact key (.inr (.inr rfl)) _ _

/-- The update configuration of a class. -/
theorem handed_update (k : Kind) (hf : Fixed k) (e : Env) (h : Args) (hh : handed k e = .ok h) :
    ∃ u, get "update" h = .dict u ∧ find "batch_size" u = some (e "batch_size") ∧ find "frequency" u = some (e "update_frequency") ∧
      find "unit" u = some (.str (if k = .vpg ∨ k = .trpo ∨ k = .ppo then "episodes" else "timesteps")) := by
  obtain ⟨h1, h2, h3⟩ := hf
  cases k with
  | tensorforce => exact (h1 rfl).elim
  | constant => exact (h2 rfl).elim
  | random => exact (h3 rfl).elim
  | dqn | doubleDqn | duelingDqn | dpg | ac | a2c => cases hh; exact ⟨_, rfl, rfl, rfl, rfl⟩
  | vpg | trpo | ppo =>
    simp only [handed, gradientArgs] at hh
    repeat' split at hh
    all_goals cases hh
    all_goals exact ⟨_, rfl, rfl, rfl, rfl⟩

/-- The reward estimation of a class contains no deprecated keys. -/
theorem handed_keys (k : Kind) (hf : Fixed k) (e : Env) (h : Args) (hh : handed k e = .ok h) :
    (get "reward_estimation" h).contains "estimate_actions" = .ok false ∧
    (get "reward_estimation" h).contains "estimate_terminal" = .ok false := by
  obtain ⟨h1, h2, h3⟩ := hf
  cases k with
  | tensorforce => exact (h1 rfl).elim
  | constant => exact (h2 rfl).elim
  | random => exact (h3 rfl).elim
  | dqn | doubleDqn | duelingDqn | dpg | ac | a2c => cases hh; exact ⟨rfl, rfl⟩
  | vpg | trpo | ppo =>
    simp only [handed, gradientArgs] at hh
    repeat' split at hh
    all_goals cases hh
    all_goals exact ⟨rfl, rfl⟩

theorem checkKeys_ok (h : Args) (h1 : (get "reward_estimation" h).contains "estimate_actions" = .ok false)
    (h2 : (get "reward_estimation" h).contains "estimate_terminal" = .ok false)
    (h3 : get "summarizer" h = .none ∨ (get "summarizer" h).contains "labels" = .ok false) : checkKeys h = .ok () := by
  unfold checkKeys
  simp only [h1, h2, bind, Except.bind, Bool.false_eq_true, if_false]
  rcases h3 with h3 | h3
  · rw [h3]; rfl
  · rw [h3]
    simp only [Bool.false_eq_true, if_false]
    split <;> rfl

/-! ### The default of `buffer_observe` -/

/-- The buffer size with one environment. -/
theorem bufferConfig_one (u m : Val) (c c' : Args) (p : Val) (hp : greater 1 p = .ok false) (h : bufferConfig p u m c = .ok c')
    (items : Args) (hu : u = .dict items) :
    ∃ unit, find "unit" items = some unit ∧
    (unit = .str "timesteps" → ∃ size, find "batch_size" items = some size ∧
      ((find "buffer_observe" c = none → c' = put "buffer_observe"
          (match (find "frequency" items).getD size with | .int n => .int n | _ => .int 1) c) ∧
       ∀ b, find "buffer_observe" c = some b → c' = c ∧ ∀ n, (find "frequency" items).getD size = .int n →
          b.isStr "episode" = false ∧ greater n b = .ok false)) ∧
    (unit = .str "episodes" → (find "buffer_observe" c = none → c' = put "buffer_observe" (.str "episode") c) ∧
      ∀ b, find "buffer_observe" c = some b → c' = c) := by
  subst hu
  unfold bufferConfig at h
  rw [hp] at h
  simp only [bind, Except.bind, Bool.false_eq_true, if_false, index] at h
  cases hi : find "unit" items with
  | none => rw [hi] at h; cases h
  | some unit =>
    rw [hi] at h
    refine ⟨unit, rfl, ?_, ?_⟩
    · rintro rfl
      simp only [show (Val.str "timesteps").isStr "timesteps" = true from rfl, if_true] at h
      cases hs : find "batch_size" items with
      | none => rw [hs] at h; cases h
      | some size =>
        rw [hs] at h
        simp only at h
        refine ⟨size, rfl, ?_, ?_⟩
        · intro hb
          rw [hb] at h
          dsimp only at h
          cases hf : (find "frequency" items).getD size with
          | int n => rw [hf] at h; cases h; rfl
          | none | bool b | float b | str b | dict b | other b => rw [hf] at h; cases h; rfl
        · intro b hb
          rw [hb] at h
          dsimp only at h
          cases hf : (find "frequency" items).getD size with
          | int n =>
            rw [hf] at h
            dsimp only at h
            split at h
            · cases h
            · rename_i he
              cases hg : greater n b with
              | error x => rw [hg] at h; cases h
              | ok g =>
                rw [hg] at h
                cases g with
                | true => cases h
                | false =>
                  cases h
                  refine ⟨rfl, fun n' hn' => ?_⟩
                  cases hn'
                  exact ⟨by simpa using he, hg⟩
          | none | bool b | float b | str b | dict b | other b =>
            rw [hf] at h
            cases h
            exact ⟨rfl, nofun⟩
    · rintro rfl
      simp only [show (Val.str "episodes").isStr "timesteps" = false from rfl,
        show (Val.str "episodes").isStr "episodes" = true from rfl, if_true, Bool.false_eq_true, if_false] at h
      constructor
      · intro hb
        rw [hb] at h
        cases h; rfl
      · intro b hb
        rw [hb] at h
        cases h; rfl

end Verif.Family
