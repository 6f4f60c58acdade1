import Verif.Train.Spec
import Mathlib.Tactic.Ring

/-! # Helper lemmas for training steps and losses -/

namespace Verif.Train

variable {K : Type} [CommRing K] [DecidableEq K]

theorem sum_mul (a : K) (f : Nat → K) (l : List Nat) : a * (l.map f).sum = (l.map fun v => a * f v).sum := by
  induction l with
  | nil => simp
  | cons x l ih => simp [mul_add, ih]

theorem nearest_cons (l2 : Option (Param K)) (path : List (Option (Param K))) (p : Param K) (h : (path.filterMap id).head? = some p) :
    nearest (l2 :: path) = (l2.getD p).value := by
  have : ((l2 :: path).filterMap id).head? = some (l2.getD p) := by
    cases l2 with
    | none => exact h
    | some q => rfl
  rw [nearest, this]
  rfl

theorem head_cons (l2 : Option (Param K)) (path : List (Option (Param K))) (p : Param K) (h : (path.filterMap id).head? = some p) :
    ((l2 :: path).filterMap id).head? = some (l2.getD p) := by
  cases l2 with
  | none => exact h
  | some q => rfl

mutual

theorem regularize_places (env : Nat → List K) (m : Tree K) (path : List (Option (Param K))) (p : Param K)
    (h : (path.filterMap id).head? = some p) :
    regularize env p m = ((places path m).map fun q => nearest q.1 * square env q.2).sum + kerasLosses m := by
  match m with
  | .node l2 t own keras losses subs =>
    have ih := regularizeAll_places env subs (l2 :: path) (l2.getD p) (head_cons l2 path p h)
    simp only [regularize, places, kerasLosses, List.map_append, List.sum_append, List.map_map, Function.comp_def]
    rw [ih, nearest_cons l2 path p h]
    have : (if (own.isEmpty || (l2.getD p).isZero) = true then (0 : K)
        else if (l2.getD p).value = 0 then 0 else (l2.getD p).value * (own.map (square env)).sum) =
        (own.map fun v => (l2.getD p).value * square env v).sum := by
      rw [← sum_mul]
      split
      · rename_i hc
        simp only [Bool.or_eq_true, List.isEmpty_iff, Param.isZero, Bool.and_eq_true, beq_iff_eq] at hc
        rcases hc with rfl | ⟨_, hz⟩
        · simp
        · rw [hz, zero_mul]
      · split
        · rename_i hz; rw [hz, zero_mul]
        · rfl
    rw [this]
    ring

theorem regularizeAll_places (env : Nat → List K) (ms : List (Tree K)) (path : List (Option (Param K))) (p : Param K)
    (h : (path.filterMap id).head? = some p) :
    regularizeAll env p ms = ((placesAll path ms).map fun q => nearest q.1 * square env q.2).sum + kerasLossesAll ms := by
  match ms with
  | [] => simp [regularizeAll, placesAll, kerasLossesAll]
  | m :: ms =>
    have h1 := regularize_places env m path p h
    have h2 := regularizeAll_places env ms path p h
    simp only [regularizeAll, placesAll, kerasLossesAll, List.map_append, List.sum_append]
    rw [h2]
    split
    · rw [h1]; ring
    · simp

end

mutual

theorem places_vars (m : Tree K) (path : List (Option (Param K))) (h : Plain m) : (places path m).map (·.2) = vars m := by
  match m with
  | .node l2 t own keras losses subs =>
    simp only [places, vars, List.map_append, List.map_map, Function.comp_def, List.map_id', h.1, List.append_nil]
    rw [placesAll_vars subs (l2 :: path) h.2]

theorem placesAll_vars (ms : List (Tree K)) (path : List (Option (Param K))) (h : PlainAll ms) : (placesAll path ms).map (·.2) = varsAll ms := by
  match ms with
  | [] => rfl
  | m :: ms =>
    simp only [placesAll, varsAll, List.map_append, h.1, if_true]
    rw [places_vars m path h.2.1, placesAll_vars ms path h.2.2]

end

theorem square_eq (env : Nat → List K) (v : Nat) : square env v = ((env v).map (· ^ 2)).sum := by
  unfold square
  congr 2
  funext x
  exact (pow_two x).symm

theorem penalty_eq (c : Config K) (d : Data K) (m : Tree K) : regularize d.env c.l2 m = c.penalty d m := by
  rw [regularize_places d.env m [some c.l2] c.l2 rfl, Config.penalty]
  simp only [square_eq]

theorem inLoss_eq (c : Config K) : c.inLoss = c.joint := by
  unfold Config.inLoss Config.joint
  cases c.baseline <;> cases c.baselineObjective <;> cases c.baselineOptimizer <;> simp

mutual

theorem mem_vars (m : Tree K) (v : Nat) : v ∈ vars m ↔ Contains m v := by
  match m with
  | .node l2 t own keras losses subs =>
    simp only [vars, List.mem_append]
    rw [mem_varsAll subs v]
    constructor
    · rintro ((h | h) | ⟨m, hm, h⟩)
      · exact .own h
      · exact .keras h
      · exact .sub m hm h
    · intro h
      cases h with
      | own h => exact .inl (.inl h)
      | keras h => exact .inl (.inr h)
      | sub m hm h => exact .inr ⟨m, hm, h⟩

theorem mem_varsAll (ms : List (Tree K)) (v : Nat) : v ∈ varsAll ms ↔ ∃ m ∈ ms, Contains m v := by
  match ms with
  | [] => simp [varsAll]
  | m :: ms =>
    simp only [varsAll, List.mem_append, List.mem_cons, exists_eq_or_imp]
    rw [mem_vars m v, mem_varsAll ms v]

end

theorem regularize_setTrainable (env : Nat → List K) (p : Param K) (b : Bool) (m : Tree K) :
    regularize env p (m.setTrainable b) = regularize env p m := by
  cases m; simp [Tree.setTrainable, regularize]

theorem trainable_setTrainable (b : Bool) (m : Tree K) : (m.setTrainable b).trainable = b := by
  cases m; rfl

theorem vars_setTrainable (b : Bool) (m : Tree K) : vars (m.setTrainable b) = vars m := by
  cases m; simp [Tree.setTrainable, vars]

theorem regularizeAll_append (env : Nat → List K) (p : Param K) (ms ns : List (Tree K)) :
    regularizeAll env p (ms ++ ns) = regularizeAll env p ms + regularizeAll env p ns := by
  induction ms with
  | nil => simp [regularizeAll]
  | cons m ms ih => simp only [List.cons_append, regularizeAll, ih]; ring

theorem varsAll_append (ms ns : List (Tree K)) : varsAll (ms ++ ns) = varsAll ms ++ varsAll ns := by
  induction ms with
  | nil => simp [varsAll]
  | cons m ms ih => simp only [List.cons_append, varsAll, ih, List.append_assoc]

theorem otherPenalty_eq (c : Config K) (d : Data K) : regularizeAll d.env c.l2 c.others = c.otherPenalty d := by
  unfold Config.otherPenalty
  generalize c.others = ms
  induction ms with
  | nil => simp [regularizeAll]
  | cons m ms ih =>
    simp only [regularizeAll, ih]
    by_cases h : m.trainable
    · simp [h, penalty_eq]
    · simp [h]

/-- The regularization of the whole model. -/
theorem regularization_eq (c : Config K) (d : Data K) :
    c.regularization d = c.penalty d c.policy +
      (match c.baseline with
        | none => 0
        | some b => if c.baselineTrainable then c.penalty d b else 0) +
      c.otherPenalty d - c.entropy.value * d.entropy := by
  have h1 : (if c.entropy.isZero = true then (0 : K) else if c.entropy.value = 0 then 0 else -c.entropy.value * d.entropy) =
      -(c.entropy.value * d.entropy) := by
    split
    · rename_i h
      simp only [Param.isZero, Bool.and_eq_true, beq_iff_eq] at h
      rw [h.2]; simp
    · split
      · rename_i h; rw [h]; simp
      · ring
  unfold Config.regularization
  rw [h1]
  simp only [Config.root, regularize, List.isEmpty_nil, Bool.true_or, if_true, Option.getD_some, List.cons_append, regularizeAll,
    trainable_setTrainable, regularize_setTrainable, regularizeAll_append, otherPenalty_eq]
  rw [penalty_eq]
  cases c.baseline with
  | none => simp only [Option.map_none, Option.toList_none, regularizeAll]; ring
  | some b =>
    simp only [Option.map_some, Option.toList_some, regularizeAll, trainable_setTrainable, regularize_setTrainable, penalty_eq]
    ring

theorem mem_root (c : Config K) (v : Nat) : v ∈ vars c.root ↔
    v ∈ vars c.policy ∨ (∃ b, c.baseline = some b ∧ v ∈ vars b) ∨ v ∈ varsAll c.others := by
  unfold Config.root
  simp only [vars, List.nil_append, List.cons_append, varsAll, varsAll_append, List.mem_append, vars_setTrainable]
  cases c.baseline with
  | none => simp [varsAll]
  | some b => simp [varsAll, vars_setTrainable]

/-! ### Steps of an update -/

theorem baseStep_isBase (c : Config K) (e : Bool) (s : Step K) (h : c.baseStep e = some s) : ∃ f, s = .base (vars c.base) f := by
  unfold Config.baseStep at h
  split at h
  · split at h
    · cases h
    · cases h; exact ⟨_, rfl⟩
  · cases h; exact ⟨_, rfl⟩

/-- The main loss is the only thing needed, and the step of the baseline stands at one of both ends. -/
theorem update_shape (c : Config K) (steps : List (Step K)) (h : c.update = some steps) :
    ∃ f, c.loss = some f ∧
      ((∃ e s, c.baselineOptimizer = .optimizer e ∧ c.baseStep e = some s ∧
          (steps = c.advStep ++ [.main c.mainVars f, s] ∨ steps = s :: c.advStep ++ [.main c.mainVars f])) ∨
        (¬ c.ownOptimizer ∧ steps = c.advStep ++ [.main c.mainVars f])) := by
  have hown : ∀ o, c.opt = o → (∀ e, o ≠ .optimizer e) → ¬ c.ownOptimizer := by
    rintro o ho hne ⟨e, he⟩
    exact hne e (by rw [← ho]; simp [Config.opt, he])
  unfold Config.update at h
  split at h
  · cases h
  · rename_i f hf
    refine ⟨f, hf, ?_⟩
    split at h
    · cases h
    · rename_i e ho
      have he : c.baselineOptimizer = .optimizer e := by
        unfold Config.opt at ho
        split at ho
        · cases ho
        · exact ho
      split at h
      · cases h
      · rename_i s hs
        refine .inl ⟨e, s, he, hs, ?_⟩
        split at h
        · cases h; exact .inl rfl
        · cases h; exact .inr rfl
    · rename_i h1 h2
      cases h
      exact .inr ⟨hown _ rfl fun e he => h2 e he, rfl⟩

theorem advStep_filter (c : Config K) : c.advStep.filter Step.isMain = [] ∧ c.advStep.filter Step.isBase = [] := by
  unfold Config.advStep
  split <;> exact ⟨rfl, rfl⟩

theorem update_main (c : Config K) (steps : List (Step K)) (h : c.update = some steps) :
    ∃ f, c.loss = some f ∧ steps.filter Step.isMain = [.main c.mainVars f] := by
  obtain ⟨f, hf, ⟨e, s, _, hs, rfl | rfl⟩ | ⟨_, rfl⟩⟩ := update_shape c steps h
  · obtain ⟨g, rfl⟩ := baseStep_isBase c e s hs
    exact ⟨f, hf, by rw [List.filter_append, (advStep_filter c).1]; rfl⟩
  · obtain ⟨g, rfl⟩ := baseStep_isBase c e s hs
    exact ⟨f, hf, by rw [List.filter_append, List.filter_cons_of_neg (by simp [Step.isMain]), (advStep_filter c).1]; rfl⟩
  · exact ⟨f, hf, by rw [List.filter_append, (advStep_filter c).1]; rfl⟩

theorem update_base_step (c : Config K) (steps : List (Step K)) (h : c.update = some steps) (e : Bool) (he : c.baselineOptimizer = .optimizer e) :
    ∃ s, c.baseStep e = some s ∧ steps.filter Step.isBase = [s] := by
  obtain ⟨f, hf, ⟨e', s, he', hs, hst⟩ | ⟨hn, _⟩⟩ := update_shape c steps h
  · rw [he] at he'
    cases he'
    refine ⟨s, hs, ?_⟩
    obtain ⟨g, rfl⟩ := baseStep_isBase c e s hs
    rcases hst with rfl | rfl
    · rw [List.filter_append, (advStep_filter c).2]; rfl
    · rw [List.filter_append, List.filter_cons_of_pos (by rfl), (advStep_filter c).2]; rfl
  · exact (hn ⟨e, he⟩).elim

theorem update_base (c : Config K) (steps : List (Step K)) (h : c.update = some steps) (e : Bool) (he : c.baselineOptimizer = .optimizer e) :
    ∃ f, steps.filter Step.isBase = [.base (vars c.base) f] := by
  obtain ⟨s, hs, hst⟩ := update_base_step c steps h e he
  obtain ⟨g, rfl⟩ := baseStep_isBase c e s hs
  exact ⟨g, hst⟩

theorem update_no_base (c : Config K) (steps : List (Step K)) (h : c.update = some steps) (hn : ¬ c.ownOptimizer) :
    steps.filter Step.isBase = [] := by
  obtain ⟨f, hf, ⟨e', s, he', _⟩ | ⟨_, rfl⟩⟩ := update_shape c steps h
  · exact (hn ⟨e', he'⟩).elim
  · rw [List.filter_append, (advStep_filter c).2]; rfl

theorem update_steps (c : Config K) (steps : List (Step K)) (h : c.update = some steps) (s : Step K) (hs : s ∈ steps) :
    (∃ f, s = .main c.mainVars f) ∨ (∃ f, s = .base (vars c.base) f) ∨ s = .advantage := by
  have hadv : ∀ t ∈ c.advStep, t = .advantage := by
    intro t ht
    unfold Config.advStep at ht
    split at ht
    · exact List.mem_singleton.1 ht
    · cases ht
  obtain ⟨f, hf, ⟨e, t, _, ht, rfl | rfl⟩ | ⟨_, rfl⟩⟩ := update_shape c steps h
  · obtain ⟨g, rfl⟩ := baseStep_isBase c e t ht
    simp only [List.mem_append, List.mem_cons, List.not_mem_nil, or_false] at hs
    rcases hs with hs | hs | hs
    · exact .inr (.inr (hadv s hs))
    · exact .inl ⟨f, hs⟩
    · exact .inr (.inl ⟨g, hs⟩)
  · obtain ⟨g, rfl⟩ := baseStep_isBase c e t ht
    simp only [List.cons_append, List.mem_append, List.mem_cons, List.not_mem_nil, or_false] at hs
    rcases hs with hs | hs | hs
    · exact .inr (.inl ⟨g, hs⟩)
    · exact .inr (.inr (hadv s hs))
    · exact .inl ⟨f, hs⟩
  · simp only [List.mem_append, List.mem_cons, List.not_mem_nil, or_false] at hs
    rcases hs with hs | hs
    · exact .inr (.inr (hadv s hs))
    · exact .inl ⟨f, hs⟩

/-- The main loss without separate baseline. -/
theorem loss_weight (c : Config K) (d : Data K) (f : Data K → K) (hf : c.loss = some f) (hn : c.baseline = none) (w : K) (ho : c.opt = .weight w)
    (hw : c.weight = w) : f d =
      d.objective + c.weight * d.baselineObjective + c.penalty d c.policy + c.otherPenalty d - c.entropy.value * d.entropy +
        (match c.baseline with
          | none => 0
          | some b => if c.inLoss then c.penalty d b else 0) := by
  unfold Config.loss Config.baselineLoss at hf
  simp only [ho] at hf
  split at hf
  · rename_i hz
    cases hf
    dsimp only
    rw [regularization_eq, hn, hw, hz]
    simp only
    ring
  · split at hf
    · cases hf
    · rename_i g hg
      cases hf
      split at hg
      · cases hg
        dsimp only
        rw [regularization_eq, hn, hw]
        simp only
        ring
      · cases hg

end Verif.Train
