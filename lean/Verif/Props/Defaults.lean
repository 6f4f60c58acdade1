import Verif.Props.Objective
import Verif.Props.Setup

/-!
# Properties C71, C72: documented defaults and simplest types; further theorems for C61, C62, C64

C61: `value_sum`: the value loss in closed form.
C62: `leaf_loss`: every objective has the loss of its own arguments.
C64: `calls_required`: objectives call what they require.

C71, defaults of baseline and reward estimation:
* `defaults_partial`, `predictions_by`, `rejected`; with the horizon "episode" the documented default is not used
  (`episode_violation`).

C72, default types:
* `simplest_type`, `setup_types`.
-/

namespace Verif.Props.Defaults

open Verif.Policy Verif.Objective

variable {K : Type} [Field K] [LinearOrder K] [IsStrictOrderedRing K]

/-! ## C61, C62 -/

/-- The value loss is the sum over all estimates of `s * d - s ^ 2 / 2`, where `d` is the distance from the reward and `s` the
distance limited to the threshold: the greatest such number for any slope within the threshold. -/
theorem value_sum (f : Fns K) (kind : ValueKind) (huber : Option K) (earlyReduce : Bool) (x : Instance K) (reference : List K)
    (hh : ∀ h, huber = some h → 0 ≤ h) (hs : earlyReduce = false → ∀ a ∈ x.actions, a.shape.length = 1) :
    (Leaf.value kind huber earlyReduce).loss f x reference =
      .ok ((estimates kind earlyReduce x).map fun v =>
        slope huber (v - x.reward) * (v - x.reward) - slope huber (v - x.reward) ^ 2 / 2).sum := by
  have he : valueEstimates kind earlyReduce x = .ok (estimates kind earlyReduce x) := by
    cases earlyReduce with
    | true => cases kind <;> rfl
    | false =>
      have hs' := hs rfl
      cases kind
      · show concatAxis1 (x.actions.map fun a => (a.shape, a.stateValues)) = _
        rw [concatAxis1_ok]
        · simp [estimates, List.flatMap_map]
        · intro p hp
          obtain ⟨a, ha, rfl⟩ := List.mem_map.1 hp
          exact hs' a ha
      · show concatAxis1 (x.actions.map fun a => (a.shape, a.actionValues)) = _
        rw [concatAxis1_ok]
        · simp [estimates, List.flatMap_map]
        · intro p hp
          obtain ⟨a, ha, rfl⟩ := List.mem_map.1 hp
          exact hs' a ha
  show valueLoss kind huber earlyReduce x = _
  unfold valueLoss
  rw [he]
  dsimp only
  congr 2
  apply List.map_congr_left
  intro v _
  generalize v - x.reward = d
  cases huber with
  | none => simp only [valueTerm, Verif.Objective.slope]; ring
  | some h =>
    have h0 := hh h rfl
    simp only [valueTerm, Verif.Objective.slope]
    split
    · rename_i hd
      obtain ⟨h1, h2⟩ := abs_le.1 hd
      rw [min_eq_right h2, max_eq_right h1]
      ring
    · rename_i hd
      rcases le_total 0 d with hd0 | hd0
      · rw [abs_of_nonneg hd0] at hd ⊢
        rw [min_eq_left (le_of_not_ge hd), max_eq_right (by linarith)]
        ring
      · rw [abs_of_nonpos hd0] at hd ⊢
        rw [min_eq_right (by linarith), max_eq_left (by linarith [le_of_not_ge hd])]
        ring

example : ((Leaf.value .state (some 1) false).loss hyperFns Verif.Props.Objective.vectors []).toOption = some 1 := by
  decide +kernel

/-- The loss of an objective is computed with its own arguments; that of the deterministic policy gradient is minus the action value
which the baseline gives to the action of the policy. -/
theorem leaf_loss (f : Fns K) (kind : ValueKind) (huber clipping : Option K) (importance earlyReduce : Bool) (x : Instance K)
    (reference : List K) :
    (Leaf.value kind huber earlyReduce).loss f x reference = valueLoss kind huber earlyReduce x ∧
      (Leaf.policyGradient importance clipping earlyReduce).loss f x reference =
        gradientLoss f importance clipping earlyReduce x reference ∧
      (Leaf.detPolicyGradient).loss f x reference = .ok (-x.deterministicValue) ∧
      (Leaf.policyGradient importance clipping earlyReduce).reference x = gradientReference earlyReduce x :=
  ⟨rfl, rfl, rfl, rfl⟩

/-! ## C64 -/

/-- Objectives which do not compute values per action call only functions which they require, of the policy or of the baseline. -/
theorem calls_required (own other : Method → Call) (o : Objective K) (h : o.perAction = false) :
    ∀ call ∈ o.calls own other, (∃ r ∈ o.requiredPolicy, ∃ m ∈ r.methods, call = own m) ∨
      ∃ r ∈ o.requiredBaseline, ∃ m ∈ r.methods, call = other m := by
  intro call hc
  rcases calls_cases own other o h call hc with h1 | ⟨h1, -, rfl⟩
  · exact Or.inl h1
  · exact Or.inr ⟨.actionValue, h1, .actionValue, by simp [Requirement.methods], rfl⟩

example : (Objective.leaf (Leaf.detPolicyGradient : Leaf ℚ)).calls .policy .baseline = [.policy .act, .baseline .actionValue] ∧
    (Objective.leaf (Leaf.detPolicyGradient : Leaf ℚ)).perAction = false := by decide

/-! ## C71 -/

/-- Documented defaults, `agents/tensorforce.py:114-129`, and of the baseline optimizer `core/models/tensorforce.py:254-267`. -/
def documented (c : Config K) : When × When × BaselineOptimizer K :=
  (c.predictHorizon.getD (if c.baseline = true ∨ c.baselineObjective ≠ none then .late else .no),
    c.estimateAdvantage.getD (if c.baseline = true ∧ c.baselineObjective = none ∧ c.baselineOptimizer = .none then .late else .no),
    if c.baselineOptimizer = .none ∧ c.baselineObjective ≠ none then .weight 1 else c.baselineOptimizer)

/-- Settings not given have the documented defaults. Missing: `predict_horizon_values` with the horizon "episode". -/
theorem defaults_partial (c : Config K) :
    (c.episodeHorizon = false ∨ c.predictHorizon ≠ none ∨ (c.baseline = false ∧ c.baselineObjective = none) →
      c.predicts = (documented c).1) ∧
    c.advantage = (documented c).2.1 ∧ c.optimizer = (documented c).2.2 := by
  obtain ⟨acts, o, b, r, bo, opt, ep, ph, ea, pa⟩ := c
  refine ⟨?_, ?_, ?_⟩
  · cases ph with
    | some w => intro _; rfl
    | none =>
      cases b <;> cases bo <;> cases ep <;> simp [Config.predicts, documented]
  · cases ea with
    | some w => rfl
    | none => cases b <;> cases bo <;> cases opt <;> simp [Config.advantage, documented]
  · cases bo <;> cases opt <;> simp [Config.optimizer, documented]

example : documented (K := ℚ) Verif.Props.Setup.actorCritic = (.late, .late, .optimizer) := by decide +kernel

/-- With the horizon "episode" and a baseline, horizon values are predicted early instead of late. -/
theorem episode_violation (c : Config K) (he : c.episodeHorizon = true) (hp : c.predictHorizon = none) (hb : c.baseline = true) :
    c.predicts = .early ∧ (documented c).1 = .late := by
  obtain ⟨acts, o, b, r, bo, opt, ep, ph, ea, pa⟩ := c
  dsimp only at he hp hb
  subst he hp hb
  exact ⟨rfl, by simp [documented]⟩

example : { Verif.Props.Setup.actorCritic with episodeHorizon := true }.baseline = true := rfl

/-- Predictions come from the separate baseline if there is one, and from the policy otherwise; there are none if neither horizon
values nor advantages are estimated. The loss of the objective asks the policy. -/
theorem predictions_by (c : Config K) :
    (∀ call ∈ c.predictionCalls, ∃ m ∈ [Method.stateValue, .actionValue],
      call = (if c.baseline then Call.baseline m else .policy m) ∧ (m = .actionValue ↔ c.predictActionValues = true)) ∧
    (c.predictionCalls = [] ↔ c.predicts = .no ∧ c.advantage = .no) := by
  unfold Config.predictionCalls
  constructor
  · intro call hc
    split at hc
    · cases hp : c.predictActionValues with
      | true =>
        rw [hp] at hc
        exact ⟨.actionValue, by simp, by simpa [Config.baselineCall] using hc, by simp⟩
      | false =>
        rw [hp] at hc
        exact ⟨.stateValue, by simp, by simpa [Config.baselineCall] using hc, by simp⟩
    · exact absurd hc (by simp)
  · split
    · rename_i h
      simp only [List.cons_ne_nil, false_iff]
      rintro ⟨h1, h2⟩
      rcases h with h | h
      · exact h h1
      · exact h h2
    · rename_i h
      simp only [true_iff]
      exact ⟨not_not.1 fun h1 => h (Or.inl h1), not_not.1 fun h1 => h (Or.inr h1)⟩

/-- Rejected configurations: late predictions with the horizon "episode", a negative weight of the baseline loss, a deterministic
policy gradient with actions which are not floats, and one as baseline objective. -/
theorem rejected (c : Config K) (s : Setup) (h : setup c = .ok s) :
    ¬(c.episodeHorizon = true ∧ c.predictHorizon = some .late) ∧ (∀ w, c.baselineOptimizer = .weight w → 0 ≤ w) ∧
      (c.objective.hasDeterministic = true → ∀ a ∈ c.actions, a = .float) ∧
      ∀ o, c.baselineObjective = some o → o.requiredBaseline = [] := by
  unfold setup at h
  split at h
  · cases h
  · rename_i h1
    split at h
    · cases h
    · rename_i h2
      split at h
      · cases h
      · rename_i h3
        dsimp only at h
        split at h
        · cases h
        · rename_i h4
          refine ⟨by simpa using h1, ?_, ?_, ?_⟩
          · intro w hw
            have : c.optimizer = .weight w := by
              unfold Config.optimizer
              rw [hw]
              simp
            unfold Config.weightOk at h4
            rw [this] at h4
            simpa using h4
          · intro hd a ha
            rw [hd, Bool.true_or, Bool.true_and] at h2
            have h2' : c.actions.all (· = .float) = true := by simpa using h2
            simpa using List.all_eq_true.1 h2' a ha
          · intro o ho
            rw [ho] at h3
            simpa using h3

example : (setup Verif.Props.Setup.actorCritic).isOk = true := by decide +kernel

/-! ## C72 -/

/-- What a type is meant for: action-value networks for float actions, value policies for boolean and integer actions, the other
types for all actions. -/
def MeantFor (actions : List ActionType) : PolicyType → Prop
  | .actionValue => ∀ a ∈ actions, a = .float
  | .valuePolicy => ∀ a ∈ actions, a ≠ .float
  | _ => True

/-- The type has the required functions, and is meant for the types of actions. -/
def Suits (actions : List ActionType) (required : List Requirement) (t : PolicyType) : Prop :=
  (∀ r ∈ required, ∀ m ∈ r.methods, t.has m = true) ∧ MeantFor actions t

/-- Types from simple to general. -/
def rank : PolicyType → Nat
  | .stateValue => 0
  | .actionValue => 1
  | .valuePolicy => 2
  | .distributions => 3

/-- The default type suits, no simpler type does, and a warning is logged exactly if a distribution policy has to provide values. -/
theorem simplest_type (actions : List ActionType) (required : List Requirement) :
    Suits actions required (defaultType actions required).1 ∧
      (∀ t, Suits actions required t → rank (defaultType actions required).1 ≤ rank t) ∧
      ((defaultType actions required).2 = true ↔
        (defaultType actions required).1 = .distributions ∧ ∃ r ∈ required, r = .stateValue ∨ r = .actionValue) := by
  have hsv : Suits actions required .stateValue → required.all (· = .stateValue) = true := by
    intro h
    rw [List.all_eq_true]
    intro r hr
    have := h.1 r hr
    cases r <;> simp [Requirement.methods, PolicyType.has] at this ⊢
  have hav : Suits actions required .actionValue →
      (required.all (· = .actionValue) && actions.all (· = .float)) = true := by
    intro h
    rw [Bool.and_eq_true, List.all_eq_true, List.all_eq_true]
    refine ⟨?_, fun a ha => by simpa using h.2 a ha⟩
    intro r hr
    have := h.1 r hr
    cases r <;> simp [Requirement.methods, PolicyType.has] at this ⊢
  have hvp : Suits actions required .valuePolicy →
      (required.all (· ≠ .stochastic) && actions.all (· ≠ .float)) = true := by
    intro h
    rw [Bool.and_eq_true, List.all_eq_true, List.all_eq_true]
    refine ⟨?_, fun a ha => by simpa using h.2 a ha⟩
    intro r hr
    have := h.1 r hr
    cases r <;> simp [Requirement.methods, PolicyType.has] at this ⊢
  refine ⟨⟨defaultType_has actions required, ?_⟩, ?_, ?_⟩
  · unfold defaultType
    split
    · exact True.intro
    · split
      · rename_i h
        intro a ha
        simpa using List.all_eq_true.1 (Bool.and_eq_true_iff.1 h).2 a ha
      · split
        · rename_i h
          intro a ha
          simpa using List.all_eq_true.1 (Bool.and_eq_true_iff.1 h).2 a ha
        · split <;> exact True.intro
  · intro t ht
    unfold defaultType
    split
    · exact Nat.zero_le _
    · rename_i h1
      have n1 : t ≠ .stateValue := by rintro rfl; exact h1 (hsv ht)
      split
      · cases t <;> simp [rank] at n1 ⊢
      · rename_i h2
        have n2 : t ≠ .actionValue := by rintro rfl; exact h2 (hav ht)
        split
        · cases t <;> simp [rank] at n1 n2 ⊢
        · rename_i h3
          have n3 : t ≠ .valuePolicy := by rintro rfl; exact h3 (hvp ht)
          split <;> cases t <;> simp [rank] at n1 n2 n3 ⊢
  · unfold defaultType
    split
    · simp
    · split
      · simp
      · split
        · simp
        · split
          · rename_i h
            simp only [Bool.false_eq_true, true_and, false_iff]
            rintro ⟨r, hr, h'⟩
            have := List.all_eq_true.1 h r hr
            rcases h' with rfl | rfl <;> simp at this
          · rename_i h
            simp only [true_and, true_iff]
            rw [List.all_eq_true] at h
            by_contra hc
            apply h
            intro r hr
            cases r with
            | policy => rfl
            | stochastic => rfl
            | stateValue => exact absurd ⟨_, hr, Or.inl rfl⟩ hc
            | actionValue => exact absurd ⟨_, hr, Or.inr rfl⟩ hc

example : defaultType [.int] [.policy, .stateValue] = (.valuePolicy, false) ∧
    defaultType [.float] [.policy, .stochastic] = (.distributions, false) ∧
    defaultType [.float] [.policy, .stochastic, .stateValue] = (.distributions, true) := by decide

/-- The constructor uses the default type for what is required of the policy: to act, what the objective requires, and, without
separate baseline, what predictions, the objective and the baseline objective require of the baseline. -/
theorem setup_types (c : Config K) (s : Setup) (h : setup c = .ok s) :
    let baseline := c.predictionFns.getD [] ++ c.objective.requiredBaseline ++ c.baselineObjective.elim [] Objective.requiredPolicy
    let required := .policy :: c.objective.requiredPolicy ++ (if c.baseline then [] else baseline)
    s.policy = (defaultType c.actions required).1 ∧
      (c.baseline = false → s.baseline = none ∧ s.warning = (defaultType c.actions required).2) ∧
      (c.baseline = true → s.baseline.isSome = true) := by
  intro baseline required
  have e : c.policyFns = required := by
    unfold Config.policyFns
    dsimp only
    cases hb : c.baseline <;> simp [required, baseline, hb]
  unfold setup at h
  rw [← e]
  split at h
  · cases h
  · split at h
    · cases h
    · split at h
      · cases h
      · dsimp only at h
        split at h
        · cases h
        · split at h
          · rename_i hb
            cases h
            exact ⟨rfl, fun h' => absurd (h'.symm.trans hb) (by simp), fun _ => rfl⟩
          · rename_i hb
            cases h
            exact ⟨rfl, fun _ => ⟨rfl, rfl⟩, fun h' => absurd h' hb⟩

end Verif.Props.Defaults
