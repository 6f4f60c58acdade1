import Verif.Objective.Setup

/-!
# Terms and helper lemmas about the choice of policy types
-/

namespace Verif.Objective

variable {K : Type} [Field K] [LinearOrder K] [IsStrictOrderedRing K]

/-- A value objective per action (`early_reduce` false) occurs in the objective. -/
def Objective.perAction : Objective K → Bool
  | .leaf (.value _ _ e) => !e
  | .leaf _ => false
  | .plus a b => a.perAction || b.perAction

/-- Functions which a requirement stands for. -/
def Requirement.methods : Requirement → List Method
  | .policy => [.act]
  | .stochastic => [.logProbability, .logProbabilities]
  | .stateValue => [.stateValue]
  | .actionValue => [.actionValue]

theorem defaultType_has (actions : List ActionType) (required : List Requirement)
    (r : Requirement) (hr : r ∈ required) (m : Method) (hm : m ∈ r.methods) :
    (defaultType actions required).1.has m = true := by
  unfold defaultType
  split
  · rename_i h
    have := List.all_eq_true.1 h r hr
    simp at this
    subst this
    simp [Requirement.methods] at hm
    subst hm
    rfl
  · split
    · rename_i _ h
      have := List.all_eq_true.1 (Bool.and_eq_true_iff.1 h).1 r hr
      simp at this
      subst this
      simp [Requirement.methods] at hm
      subst hm
      rfl
    · split
      · rename_i _ _ h
        have := List.all_eq_true.1 (Bool.and_eq_true_iff.1 h).1 r hr
        cases r <;> simp [Requirement.methods] at hm this <;> subst hm <;> rfl
      · split <;> cases m <;> rfl

theorem calls_cases (own other : Method → Call) : ∀ (o : Objective K), o.perAction = false →
    ∀ call ∈ o.calls own other,
      (∃ r ∈ o.requiredPolicy, ∃ m ∈ r.methods, call = own m) ∨
        (.actionValue ∈ o.requiredBaseline ∧ o.hasDeterministic = true ∧
          call = other .actionValue)
  | .leaf (.value .state _ e), h, call, hc => by
    have he : e = true := by simpa [Objective.perAction] using h
    subst he
    left
    have : call = own .stateValue := by simpa [Objective.calls] using hc
    exact ⟨.stateValue, by simp [Objective.requiredPolicy], .stateValue, by
      simp [Requirement.methods], this⟩
  | .leaf (.value .action _ e), h, call, hc => by
    have he : e = true := by simpa [Objective.perAction] using h
    subst he
    left
    have : call = own .actionValue := by simpa [Objective.calls] using hc
    exact ⟨.actionValue, by simp [Objective.requiredPolicy], .actionValue, by
      simp [Requirement.methods], this⟩
  | .leaf (.policyGradient _ _ e), _, call, hc => by
    left
    refine ⟨.stochastic, by simp [Objective.requiredPolicy], ?_⟩
    have : call = own (if e then .logProbability else .logProbabilities) := by
      simpa [Objective.calls] using hc
    exact ⟨_, by cases e <;> simp [Requirement.methods], this⟩
  | .leaf .detPolicyGradient, _, call, hc => by
    have : call = own .act ∨ call = other .actionValue := by simpa [Objective.calls] using hc
    rcases this with rfl | rfl
    · left
      exact ⟨.policy, by simp [Objective.requiredPolicy], .act, by simp [Requirement.methods], rfl⟩
    · right
      exact ⟨by simp [Objective.requiredBaseline], rfl, rfl⟩
  | .plus a b, h, call, hc => by
    have h' : a.perAction = false ∧ b.perAction = false := by
      simpa [Objective.perAction] using h
    have : call ∈ a.calls own other ∨ call ∈ b.calls own other := by
      simpa [Objective.calls] using hc
    rcases this with hc | hc
    · rcases calls_cases own other a h'.1 call hc with ⟨r, hr, hm⟩ | ⟨h1, h2, h3⟩
      · left
        exact ⟨r, by simp [Objective.requiredPolicy, hr], hm⟩
      · right
        exact ⟨by simp [Objective.requiredBaseline, h1], by simp [Objective.hasDeterministic, h2], h3⟩
    · rcases calls_cases own other b h'.2 call hc with ⟨r, hr, hm⟩ | ⟨h1, h2, h3⟩
      · left
        exact ⟨r, by simp [Objective.requiredPolicy, hr], hm⟩
      · right
        exact ⟨by simp [Objective.requiredBaseline, h1], by simp [Objective.hasDeterministic, h2], h3⟩

theorem setup_ok (c : Config K) (s : Setup) (h : setup c = .ok s) :
    s.policy = (defaultType c.actions c.policyFns).1 ∧
    s.baseline = (if c.baseline then some (defaultType c.actions c.baselineFns).1 else none) ∧
    (c.baselineObjective.elim [] Objective.requiredBaseline) = [] := by
  unfold setup at h
  split at h
  · exact absurd h (by simp)
  · split at h
    · exact absurd h (by simp)
    · split at h
      · exact absurd h (by simp)
      · rename_i hb
        dsimp only at h
        have hb' : c.baselineObjective.elim [] Objective.requiredBaseline = [] := by
          simpa using hb
        split at h
        · exact absurd h (by simp)
        · split at h
          · rename_i hc
            have := Except.ok.inj h
            subst this
            rw [if_pos hc]
            exact ⟨rfl, rfl, hb'⟩
          · rename_i hc
            have := Except.ok.inj h
            subst this
            rw [if_neg hc]
            exact ⟨rfl, rfl, hb'⟩

end Verif.Objective
