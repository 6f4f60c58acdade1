import Verif.Train.Lemmas

/-!
# Properties C95 (training of policy and baseline) and C96 (regularization)
-/

namespace Verif.Props.Train

open Verif.Train

variable {K : Type} [CommRing K] [DecidableEq K]

/-! ## C95 -/

/-- The variables of a module are those which it contains. -/
theorem contained (m : Tree K) (ms : List (Tree K)) (v : Nat) :
    (v ∈ vars m ↔ Contains m v) ∧ (v ∈ varsAll ms ↔ ∃ m ∈ ms, Contains m v) := ⟨mem_vars m v, mem_varsAll ms v⟩

/-- An update fails exactly if the objective of the baseline is missing, or if the optimizer of the baseline is a parameter which is no number
(`parameter_violation`). -/
theorem fails (c : Config K) : c.update = none ↔ c.incomplete ∨ c.baselineOptimizer = .parameter := by
  unfold Config.update Config.loss Config.baseStep Config.baselineLoss Config.incomplete Config.opt
  cases hb : c.baselineObjective <;> cases ho : c.baselineOptimizer with
  | weight w => by_cases hw : w = 0 <;> simp [hw]
  | optimizer e => cases e <;> by_cases ha : c.adv = .early <;> simp [ha]
  | none => by_cases h1 : (1 : K) = 0 <;> simp [h1]
  | parameter => simp

/-- Every update has one step of the main optimizer, which optimises all variables of the policy. -/
theorem policy_trained (c : Config K) (steps : List (Step K)) (h : c.update = some steps) :
    ∃ s, steps.filter Step.isMain = [s] ∧ ∀ v ∈ vars c.policy, v ∈ s.vars := by
  obtain ⟨f, hf, hs⟩ := update_main c steps h
  refine ⟨_, hs, fun v hv => ?_⟩
  show v ∈ c.mainVars
  unfold Config.mainVars
  split
  · exact (mem_root c v).2 (.inl hv)
  · exact hv

/-- If the baseline has an optimizer, every update has one step of it, which optimises exactly the variables of the baseline, or of the policy if
it is used as baseline. Otherwise there is no such step. -/
theorem baseline_optimizer (c : Config K) (steps : List (Step K)) (h : c.update = some steps) :
    (c.ownOptimizer → ∃ s, steps.filter Step.isBase = [s] ∧ s.vars = vars (c.baseline.getD c.policy)) ∧
    (¬ c.ownOptimizer → steps.filter Step.isBase = []) := by
  constructor
  · rintro ⟨e, he⟩
    obtain ⟨f, hs⟩ := update_base c steps h e he
    exact ⟨_, hs, rfl⟩
  · exact update_no_base c steps h

/-- Without an optimizer for the baseline, the main optimizer optimises its variables.
Missing: a baseline whose loss is weighted (`weighted_violation`), and a baseline without objective if no advantage is estimated
(`unused_violation`). -/
theorem baseline_main_partial (c : Config K) (steps : List (Step K)) (h : c.update = some steps) (hn : ¬ c.ownOptimizer) (hw : ¬ c.weighted)
    (ha : c.advantage ≠ some .off) :
    ∃ s, steps.filter Step.isMain = [s] ∧ ∀ v ∈ vars (c.baseline.getD c.policy), v ∈ s.vars := by
  obtain ⟨f, hf, hs⟩ := update_main c steps h
  refine ⟨_, hs, fun v hv => ?_⟩
  cases hb : c.baseline with
  | none =>
    rw [hb] at hv
    show v ∈ c.mainVars
    unfold Config.mainVars
    split
    · exact (mem_root c v).2 (.inl hv)
    · exact hv
  | some b =>
    rw [hb] at hv
    have hnp : c.baselineOptimizer ≠ .parameter := by
      intro hp
      rw [(fails c).2 (.inr hp)] at h
      cases h
    have hin : c.inLoss = true := by
      unfold Config.inLoss
      unfold Config.weighted at hw
      unfold Config.ownOptimizer at hn
      cases ho : c.baselineOptimizer with
      | none =>
        cases hbo : c.baselineObjective with
        | false => simp [hb]
        | true => exact (hw ⟨by rw [hb]; rfl, .inr ⟨ho, hbo⟩⟩).elim
      | weight w => exact (hw ⟨by rw [hb]; rfl, .inl ⟨w, ho⟩⟩).elim
      | parameter => exact (hnp ho).elim
      | optimizer e => exact (hn ⟨e, ho⟩).elim
    have hadv : c.adv ≠ .off := by
      unfold Config.adv
      cases had : c.advantage with
      | none => simp [hin]
      | some a =>
        intro e
        rw [had] at ha
        exact ha (congrArg some e)
    unfold Step.vars Config.mainVars
    rw [if_pos ⟨hadv, hin⟩]
    exact (mem_root c v).2 (.inr (.inl ⟨b, hb, hv⟩))

/-- Unless the advantage is part of the loss, no other variables are optimised.
Missing: with the advantage in the loss, those of all other modules are (`others_violation`). -/
theorem only_partial (c : Config K) (steps : List (Step K)) (h : c.update = some steps) (hi : c.joint = false) (s : Step K) (hs : s ∈ steps) (v : Nat)
    (hv : v ∈ s.vars) : v ∈ vars c.policy ∨ ∃ b, c.baseline = some b ∧ v ∈ vars b := by
  rw [← inLoss_eq] at hi
  rcases update_steps c steps h s hs with ⟨f, rfl⟩ | ⟨f, rfl⟩ | rfl
  · left
    unfold Step.vars Config.mainVars at hv
    rw [if_neg (by simp [hi])] at hv
    exact hv
  · unfold Step.vars Config.base at hv
    cases hb : c.baseline with
    | none => rw [hb] at hv; exact .inl hv
    | some b => rw [hb] at hv; exact .inr ⟨b, rfl, hv⟩
  · cases hv

/-- Advantages are estimated after the baseline is trained by its optimizer if late, before if early, and always before the policy is trained; not
at all by default. -/
theorem order (c : Config K) (steps : List (Step K)) (h : c.update = some steps) (ho : c.ownOptimizer) :
    (c.advantage = some .late → ∃ s a m, steps = [s, a, m] ∧ s.isBase = true ∧ a.isAdvantage = true ∧ m.isMain = true) ∧
    (c.advantage = some .early → ∃ a m s, steps = [a, m, s] ∧ a.isAdvantage = true ∧ m.isMain = true ∧ s.isBase = true) ∧
    ((c.advantage = none ∨ c.advantage = some .off) → ∃ s m, steps = [s, m] ∧ s.isBase = true ∧ m.isMain = true) := by
  obtain ⟨e, he⟩ := ho
  have hin : c.inLoss = false := by simp [Config.inLoss, he]
  have hopt : c.opt = .optimizer e := by simp [Config.opt, he]
  unfold Config.update at h
  rw [hopt] at h
  cases hf : c.loss with
  | none => rw [hf] at h; cases h
  | some f =>
    rw [hf] at h
    dsimp only at h
    cases hs : c.baseStep e with
    | none => rw [hs] at h; cases h
    | some s =>
      rw [hs] at h
      dsimp only at h
      have hb : s.isBase = true := by obtain ⟨g, rfl⟩ := baseStep_isBase c e s hs; rfl
      refine ⟨fun ha => ?_, fun ha => ?_, fun ha => ?_⟩
      · have hl : c.adv = .late := by simp [Config.adv, ha]
        simp only [Config.advStep, hl, hin] at h
        cases h
        exact ⟨_, _, _, rfl, hb, rfl, rfl⟩
      · have hl : c.adv = .early := by simp [Config.adv, ha]
        simp only [Config.advStep, hl, hin] at h
        cases h
        exact ⟨_, _, _, rfl, rfl, rfl, hb⟩
      · have hl : c.adv = .off := by
          rcases ha with ha | ha <;> simp [Config.adv, ha, hin]
        simp only [Config.advStep, hl, hin] at h
        cases h
        exact ⟨_, _, rfl, hb, rfl⟩

/-- Without optimizer of the baseline, advantages are estimated once, before training, if requested; not in a step of their own, if the baseline is
trained by the advantage in the loss. -/
theorem order_joint (c : Config K) (steps : List (Step K)) (h : c.update = some steps) (ho : ¬ c.ownOptimizer) :
    ((c.advantage = some .late ∨ c.advantage = some .early) → c.joint = false →
      ∃ a m, steps = [a, m] ∧ a.isAdvantage = true ∧ m.isMain = true) ∧
    ((c.advantage = none ∨ c.advantage = some .off ∨ c.joint = true) → ∃ m, steps = [m] ∧ m.isMain = true) := by
  have hin : c.inLoss = c.joint := inLoss_eq c
  have hopt : ∀ e, c.opt ≠ .optimizer e := by
    intro e he
    simp only [Config.opt] at he
    split at he
    · cases he
    · exact ho ⟨e, he⟩
  unfold Config.update at h
  cases hf : c.loss with
  | none => rw [hf] at h; cases h
  | some f =>
    rw [hf] at h
    dsimp only at h
    have h : c.advStep ++ [.main c.mainVars f] = steps := by
      split at h
      · cases h
      · rename_i e he; exact (hopt e he).elim
      · exact Option.some.inj h
    constructor
    · intro ha hj
      have : c.adv ≠ .off := by rcases ha with ha | ha <;> simp [Config.adv, ha]
      rw [Config.advStep, if_pos ⟨this, hin.trans hj⟩] at h
      exact ⟨_, _, h.symm, rfl, rfl⟩
    · intro ha
      have : ¬ (c.adv ≠ .off ∧ c.inLoss = false) := by
        rintro ⟨h1, h2⟩
        rcases ha with ha | ha | ha
        · simp [Config.adv, ha, h2] at h1
        · simp [Config.adv, ha] at h1
        · rw [hin, ha] at h2; cases h2
      rw [Config.advStep, if_neg this] at h
      exact ⟨_, h.symm, rfl⟩

/-- A module with one variable. -/
private def single (l2 : Option (Param Int)) (v : Nat) : Tree Int := .node l2 true [v] [] 0 []

private def config (objective : Bool) (opt : Opt Int) (adv : Option Adv) : Config Int :=
  ⟨single none 1, some (single (some ⟨true, 5⟩) 2), objective, opt, adv, [.node none false [3] [] 0 []], ⟨true, 7⟩, ⟨true, 0⟩⟩

/-- Variables and kinds of the steps. -/
private def shape (s : Step Int) : Bool × Bool × List Nat := (s.isMain, s.isBase, s.vars)

example : (config true (.optimizer true) (some .late)).update.map (·.map shape) =
      some [(false, true, [2]), (false, false, []), (true, false, [1])] ∧
    (config false .none none).update.map (·.map shape) = some [(true, false, [1, 2, 3])] ∧
    (config true .none (some .late)).update.map (·.map shape) = some [(false, false, []), (true, false, [1])] ∧
    (config false (.optimizer true) none).update.isNone ∧ (config false (.optimizer false) none).update.isSome := by decide +kernel

/-- Violation: if the loss of a separate baseline is part of the main loss, with a weight or by default, its variables are not optimised at
all. -/
theorem weighted_violation (c : Config K) (hw : c.weighted) (steps : List (Step K)) (h : c.update = some steps) (b : Tree K) (hb : c.baseline = some b)
    (v : Nat) (hv : v ∈ vars b) (hp : v ∉ vars c.policy) : ∀ s ∈ steps, v ∉ s.vars := by
  obtain ⟨_, hw⟩ := hw
  have hin : c.inLoss = false := by
    rcases hw with ⟨w, hw⟩ | ⟨_, hw⟩ <;> simp [Config.inLoss, hw]
  have hno : ¬ c.ownOptimizer := by
    rintro ⟨e, he⟩
    rcases hw with ⟨w, hw⟩ | ⟨hw, _⟩ <;> rw [he] at hw <;> cases hw
  intro s hs hvs
  rcases update_steps c steps h s hs with ⟨f, rfl⟩ | ⟨f, rfl⟩ | rfl
  · unfold Step.vars Config.mainVars at hvs
    rw [if_neg (by simp [hin])] at hvs
    exact hp hvs
  · have := update_no_base c steps h hno
    have hm : (Step.base (vars c.base) f) ∈ steps.filter Step.isBase := List.mem_filter.2 ⟨hs, rfl⟩
    rw [this] at hm
    cases hm
  · cases hvs

/-- For instance with weight 2, and without weight. -/
example : (config true (.weight 2) (some .late)).weighted ∧
    (config true (.weight 2) (some .late)).update.map (·.map shape) = some [(false, false, []), (true, false, [1])] ∧
    (config true .none none).update.map (·.map shape) = some [(true, false, [1])] :=
  ⟨⟨rfl, .inl ⟨2, rfl⟩⟩, by decide +kernel, by decide +kernel⟩

/-- Violation: neither are those of a baseline without objective and optimizer if advantages are switched off. -/
theorem unused_violation (c : Config K) (b : Tree K) (hb : c.baseline = some b) (ho : c.baselineOptimizer = .none) (hn : c.baselineObjective = false)
    (ha : c.advantage = some .off) (v : Nat) (hp : v ∉ vars c.policy) :
    ∃ steps, c.update = some steps ∧ ∀ s ∈ steps, v ∉ s.vars := by
  have hadv : c.adv = .off := by simp [Config.adv, ha]
  have hopt : c.opt = .none := by simp [Config.opt, ho, hn]
  have hl : c.loss = some fun d => d.objective + c.regularization d := by simp [Config.loss, hopt]
  refine ⟨_, by unfold Config.update; rw [hopt, hl], fun s hs hv => ?_⟩
  simp only [Config.advStep, hadv, ne_eq, not_true_eq_false, false_and, if_false, List.nil_append, List.mem_singleton] at hs
  subst hs
  simp only [Step.vars, Config.mainVars, hadv, ne_eq, not_true_eq_false, false_and, if_false] at hv
  exact hp hv

/-- Violation: with the advantage in the loss, the variables of all other modules are optimised, whether trainable or not. -/
theorem others_violation (c : Config K) (steps : List (Step K)) (h : c.update = some steps) (hi : c.joint = true) (ha : c.advantage = none)
    (v : Nat) (hv : v ∈ varsAll c.others) : ∃ s ∈ steps, v ∈ s.vars := by
  rw [← inLoss_eq] at hi
  obtain ⟨f, hf, hs⟩ := update_main c steps h
  have hm : (Step.main c.mainVars f) ∈ steps.filter Step.isMain := by rw [hs]; exact List.mem_singleton.2 rfl
  refine ⟨_, (List.mem_filter.1 hm).1, ?_⟩
  have hadv : c.adv = .late := by simp [Config.adv, ha, hi]
  unfold Step.vars Config.mainVars
  rw [if_pos ⟨by rw [hadv]; simp, hi⟩]
  exact (mem_root c v).2 (.inr (.inr hv))

/-- Violation: the weight cannot be a parameter which is no number, although this is documented. -/
theorem parameter_violation (c : Config K) (h : c.baselineOptimizer = .parameter) : c.update = none := (fails c).2 (.inr h)

/-! ## C96 -/

/-- The main loss: the loss of the objective, that of the baseline with its weight, the squares of the variables of policy and other trainable
modules, and of the baseline if the main optimizer trains it, weighted by the innermost factors, and the entropy, which is subtracted.
Missing: if the loss of a separate baseline is part of the main loss, its squares count once more (`twice_violation`). -/
theorem main_loss_partial (c : Config K) (hw : ¬ c.weighted) (steps : List (Step K)) (h : c.update = some steps) :
    ∃ s f, steps.filter Step.isMain = [s] ∧ s.loss? = some f ∧ ∀ d, f d =
      d.objective + c.weight * d.baselineObjective + c.penalty d c.policy + c.otherPenalty d - c.entropy.value * d.entropy +
        (match c.baseline with
          | none => 0
          | some b => if c.joint then c.penalty d b else 0) := by
  rw [← inLoss_eq]
  obtain ⟨f, hf, hs⟩ := update_main c steps h
  refine ⟨_, f, hs, rfl, fun d => ?_⟩
  have hnp : c.baselineOptimizer ≠ .parameter := by
    intro hp
    rw [(fails c).2 (.inr hp)] at h
    cases h
  unfold Config.weighted at hw
  cases ho : c.baselineOptimizer with
  | none =>
    cases hb : c.baselineObjective with
    | false =>
      have hopt : c.opt = .none := by simp [Config.opt, ho, hb]
      simp only [Config.loss, hopt, Option.some.injEq] at hf
      subst hf
      dsimp only
      have hbt : c.baselineTrainable = true := by simp [Config.baselineTrainable, hopt]
      rw [regularization_eq, hbt]
      simp only [Config.weight, ho, hb, Bool.false_eq_true, if_false, if_true, Config.inLoss, Bool.not_false, Bool.and_true, decide_true]
      cases c.baseline with
      | none => simp only; ring
      | some b => simp only [Option.isSome_some, if_true]; ring
    | true =>
      have hn : c.baseline = none := by
        cases hbl : c.baseline with
        | none => rfl
        | some b => exact (hw ⟨by rw [hbl]; rfl, .inr ⟨ho, hb⟩⟩).elim
      exact loss_weight c d f hf hn 1 (by simp [Config.opt, ho, hb]) (by simp [Config.weight, ho, hb])
  | weight w =>
    have hn : c.baseline = none := by
      cases hbl : c.baseline with
      | none => rfl
      | some b => exact (hw ⟨by rw [hbl]; rfl, .inl ⟨w, ho⟩⟩).elim
    exact loss_weight c d f hf hn w (by simp [Config.opt, ho]) (by simp [Config.weight, ho])
  | parameter => exact (hnp ho).elim
  | optimizer e =>
    have hopt : c.opt = .optimizer e := by simp [Config.opt, ho]
    simp only [Config.loss, hopt, Option.some.injEq] at hf
    subst hf
    dsimp only
    have hbt : c.baselineTrainable = false := by simp [Config.baselineTrainable, hopt]
    have hin : c.inLoss = false := by simp [Config.inLoss, ho]
    rw [regularization_eq, hbt, hin]
    simp only [Config.weight, ho]
    cases c.baseline <;> simp only [Bool.false_eq_true, if_false] <;> ring

/-- The loss of the optimizer of the baseline: the loss of its objective and the squares of the variables of a separate baseline. -/
theorem baseline_loss (c : Config K) (steps : List (Step K)) (h : c.update = some steps) (ho : c.baselineOptimizer = .optimizer true) :
    ∃ s f, steps.filter Step.isBase = [s] ∧ s.loss? = some f ∧ ∀ d, f d = d.baselineObjective +
      (match c.baseline with
        | none => 0
        | some b => c.penalty d b) := by
  obtain ⟨s, hs, hst⟩ := update_base_step c steps h true ho
  have hb : c.baselineObjective = true := by
    cases hb : c.baselineObjective with
    | true => rfl
    | false => rw [(fails c).2 (.inl ⟨hb, .inl ho⟩)] at h; cases h
  simp only [Config.baseStep, Config.baselineLoss, hb, if_true, Option.some.injEq] at hs
  subst hs
  refine ⟨_, _, hst, rfl, fun d => ?_⟩
  cases c.baseline with
  | none => rfl
  | some b => simp only [penalty_eq]

/-- Every variable of a module is regularized once.
Missing: variables of Keras objects (`keras_violation`) and of submodules which are not trainable. -/
theorem regularized_partial (m : Tree K) (path : List (Option (Param K))) (h : Plain m) : (places path m).map (·.2) = vars m := places_vars m path h

/-- The factor 5 of the baseline instead of 7 for the policy; variables with the elements 1 and 2. -/
example : (config true (.optimizer true) none).update.map (·.map fun s => s.loss?.map fun f => f ⟨fun _ => [1, 2], 100, 1000, 0⟩) =
      some [some 1025, some 135] ∧
    places [] (config true (.optimizer true) none).policy = [([none], 1)] := ⟨by decide +kernel, rfl⟩

example : Plain (config true (.optimizer true) none).policy := ⟨rfl, trivial⟩

/-- Violation: if the loss of a separate baseline is part of the main loss, the squares of its variables count once for the model and once more
with the weight. -/
theorem twice_violation (c : Config K) (hw : c.weighted) (hb : c.baselineObjective = true) (b : Tree K) (hbl : c.baseline = some b) :
    ∃ steps s f, c.update = some steps ∧ steps.filter Step.isMain = [s] ∧ s.loss? = some f ∧ ∀ d, f d =
      d.objective + c.weight * d.baselineObjective + c.penalty d c.policy + c.otherPenalty d - c.entropy.value * d.entropy +
        (1 + c.weight) * c.penalty d b := by
  obtain ⟨_, hw⟩ := hw
  have hopt : c.opt = .weight c.weight := by
    rcases hw with ⟨w, hw⟩ | ⟨hw, _⟩ <;> simp [Config.opt, Config.weight, hw, hb]
  have hsome : ∃ steps, c.update = some steps := by
    cases hu : c.update with
    | some steps => exact ⟨steps, rfl⟩
    | none =>
      rcases (fails c).1 hu with ⟨h1, _⟩ | h1
      · rw [hb] at h1; cases h1
      · rcases hw with ⟨w, hw⟩ | ⟨hw, _⟩ <;> rw [h1] at hw <;> cases hw
  obtain ⟨steps, h⟩ := hsome
  obtain ⟨f, hf, hs⟩ := update_main c steps h
  refine ⟨steps, _, f, h, hs, rfl, fun d => ?_⟩
  have hbt : c.baselineTrainable = true := by simp [Config.baselineTrainable, hopt]
  simp only [Config.loss, hopt, Config.baselineLoss, hb, if_true] at hf
  split at hf
  · rename_i hz
    cases hf
    dsimp only
    rw [regularization_eq, hbt, hbl, hz]
    simp only [if_true]
    ring
  · cases hf
    dsimp only
    rw [regularization_eq, hbt, hbl]
    simp only [if_true, penalty_eq]
    ring

example : (config true (.weight 2) none).update.map (·.map fun s => s.loss?.map fun f => f ⟨fun _ => [1, 2], 100, 1000, 0⟩) =
    some [some (100 + 2 * 1000 + 7 * 5 + (1 + 2) * (5 * 5))] := by decide +kernel

/-- Violation: variables of Keras objects, as those of recurrent layers, are optimised but never regularized. -/
theorem keras_violation (env : Nat → List K) (outer : Param K) (l2 : Option (Param K)) (t : Bool) (keras : List Nat) :
    vars (.node l2 t [] keras (0 : K) []) = keras ∧ regularize env outer (.node l2 t [] keras 0 []) = 0 := by
  simp [vars, varsAll, regularize, regularizeAll]

end Verif.Props.Train
