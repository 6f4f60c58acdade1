import Verif.Family.Lemmas

/-! # Lemmas about creating, saving and loading agents -/

namespace Verif.Family

/-- The value of `saver` after loading. -/
def loadVal : Val → Val
  | .dict items => .dict (put "load" (.bool true) items)
  | v => v

/-- The arguments after loading. -/
def loadEnv (e : Env) : Env := fun n => if n = "saver" then loadVal (e n) else e n

theorem find_append (n : String) (l r : Args) : find n (l ++ r) = (find n l).or (find n r) := by
  induction l with
  | nil => rfl
  | cons a l ih =>
    obtain ⟨k, v⟩ := a
    by_cases h : k = n
    · simp only [List.cons_append, find, if_pos h, Option.some_or]
    · simp only [List.cons_append, find, if_neg h, ih]

theorem find_mem (a : String × Val) (l : Args) (h : a ∈ l) : (find a.1 l).isSome = true := by
  induction l with
  | nil => cases h
  | cons b l ih =>
    obtain ⟨k, v⟩ := b
    unfold find
    by_cases hk : k = a.1
    · rw [if_pos hk]; rfl
    · rw [if_neg hk]
      rcases List.mem_cons.1 h with e | h
      · subst e; exact (hk rfl).elim
      · exact ih h

theorem find_loadSaver (n : String) (spec : Args) :
    find n (loadSaver spec) = if n = "saver" then (find n spec).map loadVal else find n spec := by
  unfold loadSaver
  split
  · rename_i items h
    rw [find_put]
    by_cases hn : n = "saver"
    · subst hn; rw [if_pos rfl, if_pos rfl, h]; rfl
    · rw [if_neg hn, if_neg hn]
  · rename_i h
    by_cases hn : n = "saver"
    · subst hn
      rw [if_pos rfl]
      cases hf : find "saver" spec with
      | none => rfl
      | some v =>
        cases v with
        | dict items => exact (h items hf).elim
        | _ => rfl
    · rw [if_neg hn]

/-- What is called when an agent is loaded. -/
def reload (spec : Args) : Args :=
  remove "type" (remove "agent" (loadSaver (remove "initial_internals" (remove "internals"
    (spec ++ [("internals", .other 0), ("initial_internals", .other 1)])))))

theorem find_reload (n : String) (k : Kind) (e : Env) (h1 : n ≠ "agent") (h2 : n ≠ "type") (h3 : n ≠ "internals")
    (h4 : n ≠ "initial_internals") :
    find n (reload (saved k e)) = if n ∈ savedNames k then some (loadEnv e n) else none := by
  unfold reload
  rw [find_remove, if_neg h2, find_remove, if_neg h1, find_loadSaver, find_remove, if_neg h4, find_remove, if_neg h3, find_append]
  have hr : find n [("internals", Val.other 0), ("initial_internals", .other 1)] = none := by
    unfold find find find
    rw [if_neg (fun e => h3 e.symm), if_neg (fun e => h4 e.symm)]
  rw [hr, Option.or_none]
  unfold saved
  rw [show find n (("agent", Val.str (savedAs k)) :: pick e (savedNames k)) = find n (pick e (savedNames k)) by
    rw [find, if_neg (fun e => h1 e.symm)], find_pick]
  unfold loadEnv
  by_cases hm : n ∈ savedNames k
  · rw [if_pos hm, if_pos hm]
    by_cases hs : n = "saver"
    · rw [if_pos hs, if_pos hs]; rfl
    · rw [if_neg hs, if_neg hs]
  · rw [if_neg hm, if_neg hm]; simp

theorem find_reload_special (n : String) (k : Kind) (e : Env)
    (h : n = "agent" ∨ n = "type" ∨ n = "internals" ∨ n = "initial_internals") : find n (reload (saved k e)) = none := by
  unfold reload
  rcases h with rfl | rfl | rfl | rfl
  · rw [find_remove, if_neg (by decide), find_remove, if_pos rfl]
  · rw [find_remove, if_pos rfl]
  · rw [find_remove, if_neg (by decide), find_remove, if_neg (by decide), find_loadSaver, if_neg (by decide), find_remove,
      if_neg (by decide), find_remove, if_pos rfl]
  · rw [find_remove, if_neg (by decide), find_remove, if_neg (by decide), find_loadSaver, if_neg (by decide), find_remove, if_pos rfl]

/-! ### Tables -/

theorem saved_known (k : Kind) : ∀ n ∈ savedNames k, n ∈ names k := by
  cases k <;> decide +kernel

theorem saved_not_special (k : Kind) :
    "agent" ∉ names k ∧ "type" ∉ names k ∧ "internals" ∉ names k ∧ "initial_internals" ∉ names k := by
  cases k <;> decide +kernel

theorem saved_required (k : Kind) : ((params k).all fun p => !p.2.isNone || (savedNames k).contains p.1) = true := by
  cases k <;> decide +kernel

/-- Arguments which are not saved. -/
def lost : Kind → List String
  | .tensorforce | .constant | .random => []
  | .trpo => ["linesearch_iterations", "subsampling_fraction", "reward_processing"]
  | _ => ["reward_processing"]

theorem lost_eq (k : Kind) : (names k).filter (fun n => !(savedNames k).contains n) = lost k := by
  cases k <;> decide +kernel

theorem savedAs_registry (k : Kind) : registry.find? (·.1 == savedAs k) = some (savedAs k, if k = .doubleDqn then .dqn else k) := by
  cases k <;> decide +kernel

/-! ### Loading -/

/-- Loading creates an agent of the class named in the file. -/
theorem load_reload (w : World) (k : Kind) (e : Env) (limit : Option Int)
    (hl : limit = none ∨ (get "max_episode_timesteps" (saved k e)).isNone = false) :
    load w (saved k e ++ [("internals", .other 0), ("initial_internals", .other 1)]) limit =
      make w (if k = .doubleDqn then .dqn else k) (reload (saved k e)) := by
  have hm : get "max_episode_timesteps" (saved k e ++ [("internals", .other 0), ("initial_internals", .other 1)]) =
      get "max_episode_timesteps" (saved k e) := by
    unfold get
    rw [find_append]
    cases find "max_episode_timesteps" (saved k e) <;> rfl
  have hspec : limited (saved k e ++ [("internals", .other 0), ("initial_internals", .other 1)]) limit =
      saved k e ++ [("internals", .other 0), ("initial_internals", .other 1)] := by
    unfold limited
    rw [hm]
    split
    · rename_i h
      rcases hl with hl | hl
      · cases hl
      · rw [h] at hl; cases hl
    · rfl
  unfold load
  rw [hspec]
  unfold create
  have hk : find "agent" (loadSaver (remove "initial_internals" (remove "internals"
      (saved k e ++ [("internals", .other 0), ("initial_internals", .other 1)])))) = some (.str (savedAs k)) := by
    rw [find_loadSaver, if_neg (by decide), find_remove, if_neg (by decide), find_remove, if_neg (by decide), find_append]
    unfold saved find
    rw [if_pos rfl]; rfl
  rw [hk]
  simp only [Option.getD_some]
  rw [savedAs_registry]
  rfl

/-- No required argument is missing after loading. -/
theorem reload_missing (k : Kind) (e : Env) : missing k (reload (saved k e)) = none := by
  unfold missing
  rw [Option.map_eq_none_iff, List.find?_eq_none]
  intro p hp h
  have hs := saved_required k
  rw [List.all_eq_true] at hs
  have hs := hs p hp
  simp only [Bool.and_eq_true] at h
  rw [h.1] at hs
  have hin : p.1 ∈ savedNames k := by simpa using hs
  have hns := saved_not_special k
  have hk := saved_known k p.1 hin
  rw [find_reload p.1 k e (fun e => hns.1 (e ▸ hk)) (fun e => hns.2.1 (e ▸ hk)) (fun e => hns.2.2.1 (e ▸ hk))
    (fun e => hns.2.2.2 (e ▸ hk)), if_pos hin] at h
  simp at h

/-- All arguments are known after loading. -/
theorem reload_extra (k : Kind) (e : Env) : extra k (reload (saved k e)) = [] := by
  unfold extra
  rw [List.filter_eq_nil_iff]
  intro a ha h
  have hf := find_mem a _ ha
  by_cases hsp : a.1 = "agent" ∨ a.1 = "type" ∨ a.1 = "internals" ∨ a.1 = "initial_internals"
  · rw [find_reload_special a.1 k e hsp] at hf; cases hf
  · simp only [not_or] at hsp
    rw [find_reload a.1 k e hsp.1 hsp.2.1 hsp.2.2.1 hsp.2.2.2] at hf
    by_cases hm : a.1 ∈ savedNames k
    · have := saved_known k a.1 hm
      simp [this] at h
    · rw [if_neg hm] at hf; cases hf

/-- The arguments after loading, unless some argument is lost. -/
theorem reload_env (k : Kind) (args : Args)
    (hlost : ∀ n ∈ lost k, Value k args n = ((defaults k).lookup n).getD .none) :
    env k (reload (saved k (env k args))) = loadEnv (env k args) := by
  funext n
  by_cases hn : n ∈ names k
  · have hns := saved_not_special k
    have hf := find_reload n k (env k args) (fun e => hns.1 (e ▸ hn)) (fun e => hns.2.1 (e ▸ hn)) (fun e => hns.2.2.1 (e ▸ hn))
      (fun e => hns.2.2.2 (e ▸ hn))
    rw [env_value k _ n hn]
    unfold Value arg
    rw [← find_eq_lookup, hf]
    by_cases hm : n ∈ savedNames k
    · rw [if_pos hm]; rfl
    · rw [if_neg hm]
      have hl : n ∈ lost k := by
        rw [← lost_eq, List.mem_filter]
        exact ⟨hn, by simpa using hm⟩
      have hne : n ≠ "saver" := by
        intro e; subst e
        revert hl
        cases k <;> decide +kernel
      rw [loadEnv, if_neg hne, env_value k _ n hn, hlost n hl]; rfl
  · rw [env_not k _ n hn]
    unfold loadEnv
    rw [env_not k _ n hn]
    simp [loadVal]

/-! ### Creating -/

/-- The steps of creating an agent which learns. -/
theorem make_learning (w : World) (k : Kind) (hc : k ≠ .constant) (hr : k ≠ .random) (args : Args) (a : Agent) :
    make w k args = .ok a ↔
      missing k args = none ∧ (deprecated k).find? (fun n => (find n (extra k args)).isSome) = none ∧
      ∃ h t, handed k (env k args) = .ok h ∧ (extra k args).find? (fun x => (find x.1 h).isSome) = none ∧
        baseInit h (extra k args) = .ok t ∧ (k = .duelingDqn && !w.allInt (env k args "actions")) = false ∧
        a = ⟨k, saved k (env k args), h, t⟩ := by
  have hmk : make w k args = match missing k args with
      | some n => .error (.missing n)
      | none => makeLearning w k (env k args) (extra k args) := by
    unfold make
    cases missing k args with
    | some n => rfl
    | none => cases k <;> first | rfl | exact (hc rfl).elim | exact (hr rfl).elim
  rw [hmk]
  cases hm : missing k args with
  | some n => simp
  | none =>
    simp only [true_and]
    unfold makeLearning
    cases hd : (deprecated k).find? (fun n => (find n (extra k args)).isSome) with
    | some n => simp
    | none =>
      simp only [true_and]
      cases hh : handed k (env k args) with
      | error x => simp [bind, Except.bind]
      | ok h =>
        simp only [bind, Except.bind]
        cases hx : (extra k args).find? (fun x => (find x.1 h).isSome) with
        | some x =>
          simp only [reduceCtorEq, false_iff, not_exists, not_and]
          intro h' t' he hx' _
          cases he
          rw [hx] at hx'
          cases hx'
        | none =>
          dsimp only
          cases ht : baseInit h (extra k args) with
          | error x =>
            simp only [reduceCtorEq, false_iff, not_exists, not_and]
            intro h' t' he _ ht'
            cases he
            rw [ht] at ht'
            cases ht'
          | ok t =>
            dsimp only
            cases hb : (k = .duelingDqn && !w.allInt (env k args "actions")) with
            | true => simp
            | false =>
              simp only [Bool.false_eq_true, if_false, Except.ok.injEq, true_and]
              constructor
              · intro e; exact ⟨h, t, rfl, hx, ht, e.symm⟩
              · rintro ⟨h', t', he, _, ht', e⟩
                cases he
                rw [ht] at ht'
                cases ht'
                exact e.symm

/-- Creating a constant or random agent. -/
theorem make_simple (w : World) (k : Kind) (hk : k = .constant ∨ k = .random) (args : Args) (a : Agent) :
    make w k args = .ok a ↔ missing k args = none ∧ extra k args = [] ∧ ∃ h, handed k (env k args) = .ok h ∧
      a = ⟨k, saved k (env k args), h, h⟩ := by
  have hmk : make w k args = match missing k args with
      | some n => .error (.missing n)
      | none => makeSimple k (env k args) (extra k args) := by
    unfold make
    rcases hk with rfl | rfl
    · cases missing .constant args <;> rfl
    · cases missing .random args <;> rfl
  rw [hmk]
  cases hm : missing k args with
  | some n => simp
  | none =>
    simp only [true_and]
    unfold makeSimple
    cases hx : extra k args with
    | cons x l => simp
    | nil =>
      cases handed k (env k args) with
      | error x => simp [bind, Except.bind]
      | ok h => simp [bind, Except.bind, eq_comm]

theorem checkExtra_ok (rest : Args) : checkExtra rest = .ok () ↔ rest = [] := by
  unfold checkExtra
  constructor
  · intro h
    split at h
    · cases h
    · split at h
      · rfl
      · cases h
  · rintro rfl; rfl

/-- What the constructor of the Tensorforce agent passes on. -/
theorem baseInit_ok (h rest t : Args) : baseInit h rest = .ok t ↔ checkKeys h = .ok () ∧ rest = [] ∧
    ∃ c c', configDict (get "config" h) = .ok c ∧
      bufferConfig (get "parallel_interactions" h) (updateDefault (get "update" h)) (get "max_episode_timesteps" h) c = .ok c' ∧
      bufferValid (find "buffer_observe" c') = true ∧
      t = put "memory" (memoryDefault (get "memory" h)) (put "update" (updateDefault (get "update" h)) (put "config" (.dict c') h)) := by
  unfold baseInit
  rw [← checkExtra_ok rest]
  cases hk : checkKeys h with
  | error x => simp [bind, Except.bind]
  | ok u =>
    cases hx : checkExtra rest with
    | error x => simp [bind, Except.bind]
    | ok u =>
      cases hc : configDict (get "config" h) with
      | error x => simp [bind, Except.bind]
      | ok c =>
        simp only [bind, Except.bind, true_and]
        cases hb : bufferConfig (get "parallel_interactions" h) (updateDefault (get "update" h))
            (get "max_episode_timesteps" h) c with
        | error x =>
          simp only [reduceCtorEq, false_iff, not_exists, not_and]
          intro c1 c2 e1 e2
          cases e1
          rw [hb] at e2
          cases e2
        | ok c' =>
          cases hv : bufferValid (find "buffer_observe" c') with
          | false =>
            simp only [hv, Bool.not_false, if_true, reduceCtorEq, false_iff, not_exists, not_and]
            intro c1 c2 e1 e2 e3
            cases e1
            rw [hb] at e2
            cases e2
            rw [hv] at e3
            cases e3
          | true =>
            simp only [hv, Bool.not_true, Bool.false_eq_true, if_false, Except.ok.injEq]
            constructor
            · intro e; exact ⟨c, c', rfl, hb, hv, e.symm⟩
            · rintro ⟨c1, c2, e1, e2, _, e⟩
              cases e1
              rw [hb] at e2
              cases e2
              exact e.symm

end Verif.Family
