import Verif.Family.Spec

/-! # Lemmas about the agent classes -/

namespace Verif.Family

theorem find_eq_lookup (k : String) (args : Args) : find k args = args.lookup k := by
  induction args with
  | nil => rfl
  | cons a rest ih =>
    obtain ⟨k', v⟩ := a
    unfold find
    rw [List.lookup_cons]
    by_cases h : k' = k
    · subst h; simp
    · rw [if_neg h, ih]
      have : (k == k') = false := by simpa using fun e => h e.symm
      rw [this]

theorem find_put (k n : String) (v : Val) (args : Args) :
    find n (put k v args) = if n = k then some v else find n args := by
  induction args with
  | nil =>
    unfold put find find
    by_cases h : k = n
    · rw [if_pos h, if_pos h.symm]
    · rw [if_neg h, if_neg (fun e => h e.symm)]
  | cons a rest ih =>
    obtain ⟨k', v'⟩ := a
    unfold put
    by_cases h : k' = k
    · rw [if_pos h]
      unfold find
      by_cases h2 : k = n
      · rw [if_pos h2, if_pos h2.symm]
      · rw [if_neg h2, if_neg (fun e => h2 e.symm), if_neg (by rw [h]; exact h2)]
    · rw [if_neg h]
      unfold find
      by_cases h2 : k' = n
      · rw [if_pos h2, if_pos h2, if_neg (fun e => h (h2.trans e))]
      · rw [if_neg h2, if_neg h2, ih]

theorem find_remove (k n : String) (args : Args) : find n (remove k args) = if n = k then none else find n args := by
  induction args with
  | nil => unfold remove find; rw [ite_self]
  | cons a rest ih =>
    obtain ⟨k', v'⟩ := a
    unfold remove
    by_cases h : k' = k
    · rw [if_pos h, ih]
      by_cases h2 : n = k
      · rw [if_pos h2, if_pos h2]
      · rw [if_neg h2, if_neg h2]
        conv => rhs; unfold find
        rw [if_neg (by rw [h]; exact fun e => h2 e.symm)]
    · rw [if_neg h]
      unfold find
      rw [ih]
      by_cases h2 : k' = n
      · rw [if_pos h2, if_pos h2, if_neg (fun e => h (h2.trans e))]
      · rw [if_neg h2, if_neg h2]

theorem find_pick (e : Env) (ns : List String) (n : String) : find n (pick e ns) = if n ∈ ns then some (e n) else none := by
  induction ns with
  | nil => rfl
  | cons m rest ih =>
    show find n ((m, e m) :: pick e rest) = _
    unfold find
    by_cases h : m = n
    · subst h; simp
    · rw [if_neg h, ih]
      have : n ≠ m := fun e => h e.symm
      simp [this]

/-- A parameter has the given value or its default. -/
theorem valueOf_mem (ps : List (String × Option Val)) (args : Args) (h : (ps.map (·.1)).Nodup) :
    ∀ p ∈ ps, valueOf ps args p.1 = arg args p.1 (p.2.getD .none) := by
  intro p hp
  have hf : ps.find? (·.1 == p.1) = some p := by
    induction ps with
    | nil => exact absurd hp (by simp)
    | cons q rest ih =>
      rw [List.map_cons, List.nodup_cons] at h
      rcases List.mem_cons.1 hp with e | hr
      · subst e; simp
      · have hne : (q.1 == p.1) = false := by
          have : q.1 ≠ p.1 := fun e => h.1 (by rw [e]; exact List.mem_map_of_mem hr)
          simpa using this
        rw [List.find?_cons, hne]
        exact ih h.2 hr
  unfold valueOf arg
  rw [hf]
  dsimp only
  rw [find_eq_lookup]
  cases args.lookup p.1 <;> rfl

theorem valueOf_not (ps : List (String × Option Val)) (args : Args) (n : String) (h : n ∉ ps.map (·.1)) :
    valueOf ps args n = .none := by
  unfold valueOf
  have : ps.find? (·.1 == n) = none := by
    rw [List.find?_eq_none]
    intro p hp e
    have e' : p.1 = n := by simpa using e
    exact h (e' ▸ List.mem_map_of_mem hp)
  rw [this]

theorem names_nodup (k : Kind) : (names k).Nodup := by
  cases k <;> decide +kernel

/-- The defaults of the signatures are the documented ones. -/
theorem params_defaults (k : Kind) : ∀ p ∈ params k, p.2.getD .none = ((defaults k).lookup p.1).getD .none := by
  cases k <;>
  simp [params, dqnParams, dpgParams, acParams, a2cParams, vpgParams, trpoParams, ppoParams, commonParams, req, opt, defaults,
    commonDefaults, List.lookup]

theorem env_value (k : Kind) (args : Args) (n : String) (h : n ∈ names k) : env k args n = Value k args n := by
  obtain ⟨p, hp, rfl⟩ := List.mem_map.1 h
  show valueOf (params k) args p.1 = _
  rw [valueOf_mem _ _ (names_nodup k) p hp, params_defaults k p hp]
  rfl

theorem env_not (k : Kind) (args : Args) (n : String) (h : n ∉ names k) : env k args n = .none :=
  valueOf_not _ _ _ h

end Verif.Family
