import Verif.Gym.LevelLemmas

/-! # Lemmas about the creation of environments -/

namespace Verif.Gym

/-- What the second half of `create_level` gives for the registered id which was found. -/
def Made (reg : Registry) (src : Name) (r : Reg) (want : Option Nat) (threshold : Option Rat) (c : Created) : Prop :=
  c.steps = want ∧ look c.id c.reg = some ⟨want, wantedThreshold r.threshold threshold⟩ ∧ baseOf c.id = baseOf src ∧
    (∀ n, n ≠ c.id → look n c.reg = look n reg) ∧
    (r = ⟨want, wantedThreshold r.threshold threshold⟩ → c.id = src ∧ c.reg = reg) ∧
    (r ≠ ⟨want, wantedThreshold r.threshold threshold⟩ → look c.id reg = none)

theorem threshold_if (own threshold : Option Rat) : (if threshold = none then own else threshold) = wantedThreshold own threshold := by
  cases threshold <;> rfl

theorem create_made {reg : Registry} {level src : Name} {steps steps' : Steps} {threshold : Option Rat} {r : Reg}
    (hf : findLevel reg level steps = .ok (src, steps')) (hs : look src reg = some r) (hv : (rsplit src).isSome = true) :
    ∃ c, createLevel reg level steps threshold = .ok c ∧ Made reg src r (wantedSteps (some r.steps) steps') threshold c := by
  obtain ⟨new, hn1, hn2, hn3⟩ := freshName_ok reg hv
  have hwant : finalSteps r.steps steps' = wantedSteps (some r.steps) steps' := by
    cases steps' <;> rfl
  have hreg : (decide (steps' ≠ .unset) && !steps'.same r.steps && !(decide (steps' = .off) && decide (r.steps = none)) ||
      (decide (threshold ≠ none) && decide (threshold ≠ r.threshold))) =
      decide (r ≠ ⟨wantedSteps (some r.steps) steps', wantedThreshold r.threshold threshold⟩) := by
    obtain ⟨rs, rt⟩ := r
    cases steps' with
    | unset =>
      cases threshold with
      | none => simp [wantedSteps, wantedThreshold]
      | some t => cases rt <;> simp [wantedSteps, wantedThreshold, eq_comm]
    | off =>
      cases rs with
      | none =>
        cases threshold with
        | none => simp [wantedSteps, wantedThreshold, Steps.same]
        | some t => cases rt <;> simp [wantedSteps, wantedThreshold, Steps.same, eq_comm]
      | some m =>
        cases threshold with
        | none => simp [wantedSteps, wantedThreshold, Steps.same]
        | some t => simp [wantedSteps, wantedThreshold, Steps.same]
    | limit n =>
      cases rs with
      | none =>
        cases threshold with
        | none => simp [wantedSteps, wantedThreshold, Steps.same]
        | some t => simp [wantedSteps, wantedThreshold, Steps.same]
      | some m =>
        have hb : (n == m) = decide (m = n) := by
          by_cases e : m = n
          · subst e; simp
          · simp [e, Ne.symm e]
        cases threshold with
        | none => simp [wantedSteps, wantedThreshold, Steps.same, hb]
        | some t =>
          cases rt with
          | none => simp [wantedSteps, wantedThreshold, Steps.same, hb]
          | some u =>
            have hu : (t = u) = (u = t) := propext ⟨Eq.symm, Eq.symm⟩
            by_cases e1 : m = n <;> by_cases e2 : u = t <;> simp [wantedSteps, wantedThreshold, Steps.same, hb, hu, e1, e2]
  rw [createLevel, hf]
  dsimp only
  rw [hs]
  dsimp only
  rw [hwant, threshold_if, hreg]
  by_cases e : r = ⟨wantedSteps (some r.steps) steps', wantedThreshold r.threshold threshold⟩
  · rw [if_neg (by simpa using e)]
    refine ⟨_, rfl, rfl, ?_, rfl, fun n _ => rfl, fun _ => ⟨rfl, rfl⟩, fun h => absurd e h⟩
    dsimp only
    rw [hs]
    exact congrArg some e
  · rw [if_pos (by simpa using e), hn1]
    exact ⟨_, rfl, rfl, look_put_self _, hn3, fun n h => look_put_other h _, fun h => absurd h e, fun _ => hn2⟩

/-- The first half of `create_level` for a name which is not registered. -/
theorem find_ok {reg : Registry} {level : Name} {steps : Steps} (hreg : ∀ x ∈ reg, (rsplit x.1).isSome = true)
    (hl : look level reg = none) :
    (∃ src steps', findLevel reg level steps = .ok (src, steps') ∧ (look src reg).isSome = true ∧ baseOf src = some level ∧
      (∀ own, wantedSteps own steps' = wantedSteps none steps) ∧
      ∀ k, steps = .limit k → (∃ n, baseOf n = some level ∧ (look n reg).map (·.steps) = some (some k)) →
        (look src reg).map (·.steps) = some (some k)) ∨
    (findLevel reg level steps = .error .value ∧ ∀ x ∈ reg, baseOf x.1 ≠ some level) := by
  rw [findLevel.eq_def, hl]
  simp only [Option.isSome_none, Bool.false_eq_true, if_false]
  have hmem : ∀ names : List Name, names = (if (look (level ++ versionZero) reg).isSome = true then
        (level ++ versionZero) :: reg.map (·.1) else reg.map (·.1)) →
      (∀ n ∈ names, (rsplit n).isSome = true ∧ (look n reg).isSome = true) ∧ ∀ x ∈ reg, x.1 ∈ names := by
    intro names hn
    have h1 : ∀ n, (look n reg).isSome = true → (rsplit n).isSome = true := fun n h => by
      obtain ⟨r, hr⟩ := Option.isSome_iff_exists.mp h
      exact hreg _ (look_mem hr)
    have h2 : ∀ n ∈ reg.map (·.1), (rsplit n).isSome = true ∧ (look n reg).isSome = true := fun n h => by
      obtain ⟨x, hx, rfl⟩ := List.mem_map.mp h
      exact ⟨hreg x hx, mem_look hx⟩
    split at hn
    · rename_i hz
      subst hn
      refine ⟨fun n h => ?_, fun x hx => List.mem_cons_of_mem _ (List.mem_map.mpr ⟨x, hx, rfl⟩)⟩
      rcases List.mem_cons.mp h with e | h
      · rw [e]; exact ⟨h1 _ hz, hz⟩
      · exact h2 n h
    · subst hn
      exact ⟨h2, fun x hx => List.mem_map.mpr ⟨x, hx, rfl⟩⟩
  obtain ⟨hm1, hm2⟩ := hmem _ rfl
  obtain ⟨r, h1, h2, h3, h4⟩ := search_ok (steps := if steps = .unset then .off else steps) (base := level) (found := none) hm1
  rw [h1]
  cases r with
  | none => exact .inr ⟨rfl, fun x hx => (h2 rfl).2 x.1 (hm2 x hx)⟩
  | some src =>
    have hsrc := (h3 src rfl).resolve_left (by simp)
    refine .inl ⟨src, _, rfl, (hm1 src hsrc.1).2, hsrc.2, fun own => by cases steps <;> rfl, fun k hk hex => ?_⟩
    obtain ⟨n, hb, hn⟩ := hex
    refine h4 k (by rw [hk]; rfl) ⟨n, ?_, hb, hn⟩ src rfl
    cases hlk : look n reg with
    | none => rw [hlk] at hn; simp at hn
    | some r => exact hm2 _ (look_mem hlk)

theorem from_made {reg : Registry} {src : Name} {r : Reg} {want : Option Nat} {threshold : Option Rat} {c : Created}
    (h : Made reg src r want threshold c) : CreatedFrom reg src r want threshold c :=
  ⟨h.1, h.2.1, fun base hb => version_iff.mpr (h.2.2.1.trans (version_iff.mp hb)), h.2.2.2⟩

theorem versioned_split {reg : Registry} (h : Versioned reg) : ∀ x ∈ reg, (rsplit x.1).isSome = true := fun x hx => by
  obtain ⟨base, hb⟩ := h x hx
  have := version_iff.mp hb
  rw [baseOf] at this
  cases hr : rsplit x.1 with
  | none => rw [hr] at this; simp at this
  | some p => rfl

theorem version_example (base : Name) (v : Char) (hv : v ≠ '-') : VersionOf base (base ++ (dashV ++ [v])) := by
  refine ⟨[v], rfl, ?_⟩
  rintro ⟨s, t, h⟩
  have := congrArg List.length h
  simp [dashV] at this
  omega

end Verif.Gym
