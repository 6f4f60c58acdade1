import Verif.Objective.SetupLemmas
import Mathlib.Data.Rat.Defs
import Mathlib.Algebra.Order.Ring.Rat
import Mathlib.Algebra.Field.Rat

/-!
# Properties C64, C65: default types of policy and baseline

C64, every function which is called exists:
* `calls_supported_partial`, with four exceptions:
* `per_action_violation`: value objectives per action,
* `no_baseline_violation`: a deterministic policy gradient without separate baseline,
* `no_objective_violation`: a baseline optimizer or weight without baseline objective,
* `recurrent_violation`: an action-value baseline with internal states.

C65, the type of a baseline depends on what is required of the baseline:
* `baseline_type_partial`, `baseline_type_violation`.
-/

namespace Verif.Props.Setup

open Verif.Objective

variable {K : Type} [Field K] [LinearOrder K] [IsStrictOrderedRing K]

/-- If the constructor accepts the configuration, then policy and baseline have all the functions
which acting and updates call.  Missing: the four exceptions which the hypotheses exclude. -/
theorem calls_supported_partial (c : Config K) (s : Setup) (h : setup c = .ok s)
    (h1 : c.objective.perAction = false ∧
      ∀ o, c.baselineObjective = some o → o.perAction = false)
    (h2 : c.objective.hasDeterministic = true → c.baseline = true)
    (h3 : c.optimizer ≠ .none → c.optimizer ≠ .weight 0 → c.baselineObjective.isSome = true)
    (h4 : c.recurrent = true → s.baseline ≠ some .actionValue) :
    ∀ call ∈ c.calls, s.supports call = true := by
  obtain ⟨hp, hb, hn⟩ := setup_ok c s h
  have hpolicy : ∀ r ∈ c.policyFns, ∀ m ∈ r.methods, s.supports (.policy m) = true := by
    intro r hr m hm
    show s.policy.has m = true
    rw [hp]
    exact defaultType_has _ _ r hr m hm
  have hbaseline : c.baseline = true → ∀ r ∈ c.baselineFns, ∀ m ∈ r.methods,
      s.supports (.baseline m) = true := by
    intro hc r hr m hm
    show s.baseline.elim false (·.has m) = true
    rw [hb, if_pos hc]
    exact defaultType_has _ _ r hr m hm
  have hbc : ∀ r, (c.baseline = true → r ∈ c.baselineFns) →
      (c.baseline = false → r ∈ c.policyFns) → ∀ m ∈ r.methods,
      s.supports (c.baselineCall m) = true := by
    intro r ha hb' m hm
    unfold Config.baselineCall
    cases hc : c.baseline with
    | true => exact hbaseline hc r (ha hc) m hm
    | false => exact hpolicy r (hb' hc) m hm
  intro call hcall
  unfold Config.calls at hcall
  simp only [List.cons_append, List.mem_cons, List.mem_append] at hcall
  rcases hcall with rfl | ((hcall | hcall) | hcall) | hcall
  · -- act
    apply hpolicy .policy _ .act (by simp [Requirement.methods])
    unfold Config.policyFns
    dsimp only
    split <;> simp
  · -- internal states
    split at hcall
    · rename_i hc
      have hc' := Bool.and_eq_true_iff.1 hc
      have e : call = .baseline .nextInternals := by simpa using hcall
      subst e
      have h4' := h4 hc'.2
      rw [hb, if_pos hc'.1] at h4'
      show s.baseline.elim false (·.has .nextInternals) = true
      rw [hb, if_pos hc'.1]
      show (defaultType c.actions c.baselineFns).1.has .nextInternals = true
      generalize (defaultType c.actions c.baselineFns).1 = t at h4'
      cases t with
      | actionValue => exact absurd rfl h4'
      | _ => rfl
    · exact absurd hcall (by simp)
  · -- predictions
    unfold Config.predictionCalls at hcall
    split at hcall
    · rename_i hw
      have e : call = c.baselineCall (if c.predictActionValues then .actionValue else .stateValue) :=
        by simpa using hcall
      have hf : c.predictionFns =
          some (if c.predictActionValues then [.actionValue] else [.stateValue]) := by
        unfold Config.predictionFns
        rw [if_pos hw]
      subst e
      apply hbc (if c.predictActionValues then .actionValue else .stateValue)
      · intro _
        unfold Config.baselineFns
        rw [hf]
        cases c.predictActionValues <;> simp
      · intro hc
        unfold Config.policyFns
        dsimp only
        rw [hf, hc]
        cases c.predictActionValues <;> simp
      · cases c.predictActionValues <;> simp [Requirement.methods]
    · exact absurd hcall (by simp)
  · -- loss of the objective
    rcases calls_cases _ _ c.objective h1.1 call hcall with ⟨r, hr, m, hm, rfl⟩ | ⟨ha, hd, rfl⟩
    · apply hpolicy r _ m hm
      unfold Config.policyFns
      dsimp only
      split <;> simp [hr]
    · have hc := h2 hd
      rw [if_pos hc]
      apply hbaseline hc .actionValue _ .actionValue (by simp [Requirement.methods])
      unfold Config.baselineFns
      simp [ha]
  · -- loss of the baseline objective
    have key : (c.optimizer ≠ .none ∧ c.optimizer ≠ .weight 0) ∧
        call ∈ (match c.baselineObjective with
          | none => [Call.nothing]
          | some o => o.calls c.baselineCall fun _ => .nothing) := by
      unfold Config.baselineLossCalls at hcall
      dsimp only at hcall
      split at hcall <;> rename_i ho
      · exact absurd hcall (by simp)
      · split at hcall
        · exact absurd hcall (by simp)
        · rename_i hw
          rw [ho]
          exact ⟨⟨by simp, fun e => hw (by injection e)⟩, hcall⟩
      · rw [ho]
        exact ⟨⟨by simp, by simp⟩, hcall⟩
    obtain ⟨hopt, hcall⟩ := key
    have hsome := h3 hopt.1 hopt.2
    cases ho : c.baselineObjective with
    | none => rw [ho] at hsome; exact absurd hsome (by simp)
    | some o =>
      rw [ho] at hcall hn
      rcases calls_cases _ _ o (h1.2 o ho) call hcall with ⟨r, hr, m, hm, rfl⟩ | ⟨ha, _, rfl⟩
      · apply hbc r _ _ m hm
        · intro _
          unfold Config.baselineFns
          rw [ho]
          simp [hr]
        · intro hc
          unfold Config.policyFns
          dsimp only
          rw [hc, ho]
          simp [hr]
      · have hn' : o.requiredBaseline = [] := hn
        rw [hn'] at ha
        exact absurd ha (by simp)

/-- An actor-critic configuration: policy gradient, and a separate baseline with value objective and
optimizer. -/
def actorCritic : Config ℚ where
  actions := [.int]
  objective := .leaf (.policyGradient false none true)
  baseline := true
  recurrent := false
  baselineObjective := some (.leaf (.value .state none true))
  baselineOptimizer := .optimizer
  episodeHorizon := false
  predictHorizon := none
  estimateAdvantage := some .late
  predictActionValues := false

example : (setup actorCritic).toOption = some ⟨.distributions, some .stateValue, false⟩ ∧
    actorCritic.calls = [.policy .act, .baseline .stateValue, .policy .logProbability,
      .baseline .stateValue] := by decide +kernel

example : ∀ s, setup actorCritic = .ok s → ∀ call ∈ actorCritic.calls, s.supports call = true := by
  intro s h
  have e : setup actorCritic = .ok ⟨.distributions, some .stateValue, false⟩ := rfl
  refine calls_supported_partial actorCritic s h ⟨rfl, ?_⟩ (by decide) (by decide)
    (fun hr => absurd hr (by decide))
  intro o ho
  cases ho
  rfl

/-- A value objective per action calls `state_values`, but asks for `state_value` only
(`value.py:65-69` and `126`): the state-value baseline which is chosen does not have it. -/
theorem per_action_violation :
    let c := { actorCritic with baselineObjective := some (.leaf (.value .state none false)) }
    ∃ s, setup c = .ok s ∧ ∃ call ∈ c.calls, s.supports call = false :=
  ⟨⟨.distributions, some .stateValue, false⟩, rfl, .baseline .stateValues, by decide +kernel, rfl⟩

/-- Without separate baseline, the policy is made to provide action values for a deterministic
policy gradient (`tensorforce.py:369`), but the objective gets `None` as baseline (`2836`). -/
theorem no_baseline_violation :
    let c : Config ℚ :=
      { actorCritic with
        actions := [.float], objective := .leaf .detPolicyGradient, baseline := false
        baselineObjective := none, baselineOptimizer := .none, estimateAdvantage := none }
    ∃ s, setup c = .ok s ∧ .nothing ∈ c.calls :=
  ⟨⟨.distributions, none, true⟩, rfl, by decide +kernel⟩

/-- A baseline optimizer, or a weight of the baseline loss, is accepted without a baseline
objective, and then the loss of `None` is called (`tensorforce.py:2929`). -/
theorem no_objective_violation :
    let c := { actorCritic with baselineObjective := none }
    let d := { actorCritic with baselineObjective := none, baselineOptimizer := .weight 1 }
    (∃ s, setup c = .ok s ∧ .nothing ∈ c.calls) ∧ (∃ s, setup d = .ok s ∧ .nothing ∈ d.calls) :=
  ⟨⟨⟨.distributions, some .stateValue, false⟩, rfl, by decide +kernel⟩,
    ⟨⟨.distributions, some .stateValue, false⟩, rfl, by decide +kernel⟩⟩

/-- An action-value baseline whose network has internal states cannot compute the next ones. -/
theorem recurrent_violation :
    let c : Config ℚ :=
      { actorCritic with
        actions := [.float], objective := .leaf .detPolicyGradient, recurrent := true
        baselineObjective := some (.leaf (.value .action none true)), predictActionValues := true }
    ∃ s, setup c = .ok s ∧ ∃ call ∈ c.calls, s.supports call = false :=
  ⟨⟨.distributions, some .actionValue, false⟩, rfl, .baseline .nextInternals, by decide +kernel, rfl⟩

/-! ## C65 -/

/-- Functions required of a separate baseline: those of predictions, those which the objective wants
from a baseline, and those of the baseline objective. -/
def needs (c : Config K) : List Requirement :=
  c.predictionFns.getD [] ++ c.objective.requiredBaseline ++
    (c.baselineObjective.elim [] Objective.requiredPolicy)

/-- The type of a separate baseline is chosen by the functions required of it.  Missing:
configurations without predictions. -/
theorem baseline_type_partial (c : Config K) (s : Setup) (h : setup c = .ok s)
    (hb : c.baseline = true) (hp : c.predicts ≠ .no ∨ c.advantage ≠ .no) :
    s.baseline = some (defaultType c.actions (needs c)).1 := by
  obtain ⟨_, h2, _⟩ := setup_ok c s h
  rw [h2, if_pos hb]
  have e : c.baselineFns = needs c := by
    unfold Config.baselineFns needs Config.predictionFns
    rw [if_pos hp]
    rfl
  rw [e]

example : ∀ s, setup actorCritic = .ok s → s.baseline = some (defaultType [.int] [.stateValue]).1 :=
  fun s h => (baseline_type_partial actorCritic s h rfl (by decide)).trans (by decide +kernel)

/-- Without predictions, the functions required of the policy are required of the baseline as well
(`tensorforce.py:406-414` does not start with an empty set): a baseline which has to provide state
values only becomes a distribution policy, with a warning. -/
theorem baseline_type_violation :
    let c := { actorCritic with predictHorizon := some .no, estimateAdvantage := some .no }
    needs c = [.stateValue] ∧ defaultType c.actions (needs c) = (.stateValue, false) ∧
      setup c = .ok ⟨.distributions, some .distributions, true⟩ :=
  ⟨by decide +kernel, by decide +kernel, rfl⟩

end Verif.Props.Setup
