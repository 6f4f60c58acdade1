import Verif.Family.LoadLemmas

/-! # Lemmas about the arguments for the Tensorforce agent -/

namespace Verif.Family

theorem loadEnv_ne (e : Env) (n : String) (h : n ≠ "saver") : loadEnv e n = e n := if_neg h

theorem loadEnv_saver (e : Env) : loadEnv e "saver" = loadVal (e "saver") := if_pos rfl

/-- The values which a class needs. -/
theorem loadEnv_superArgs (e : Env) (p m u o ob r b bo bb : Val) :
    superArgs (loadEnv e) p m u o ob r b bo bb = put "saver" (loadVal (e "saver")) (superArgs e p m u o ob r b bo bb) := by
  unfold superArgs
  rw [loadEnv_saver]
  simp (disch := decide) only [loadEnv_ne]
  rfl

theorem handed_load (k : Kind) (hc : k ≠ .constant) (hr : k ≠ .random) (e : Env) :
    handed k (loadEnv e) = (handed k e).map (put "saver" (loadVal (e "saver"))) := by
  cases k with
  | constant => exact (hc rfl).elim
  | random => exact (hr rfl).elim
  | tensorforce =>
    show Except.ok (pick (loadEnv e) (names .tensorforce)) = .ok (put "saver" (loadVal (e "saver")) (pick e (names .tensorforce)))
    congr 1
  | dqn | doubleDqn | duelingDqn | dpg | ac | a2c =>
    simp only [handed, dqnArgs, dpgArgs, criticArgs, loadEnv_superArgs, implicitPolicy, duelingPolicy, distributions, recentMemory]
    simp (disch := decide) only [loadEnv_ne]
    rfl
  | vpg | trpo | ppo =>
    simp only [handed, gradientArgs, loadEnv_superArgs, distributions, recentMemory, vpgOptimizer, trpoOptimizer, ppoOptimizer,
      ppoObjective]
    simp (disch := decide) only [loadEnv_ne]
    repeat' split
    all_goals rfl

theorem get_put (k n : String) (v : Val) (args : Args) : get n (put k v args) = if n = k then v else get n args := by
  unfold get
  rw [find_put]
  split <;> rfl

theorem checkKeys_saver (v : Val) (h : Args) : checkKeys (put "saver" v h) = checkKeys h := by
  unfold checkKeys
  rw [get_put, get_put]
  rfl

/-- Another saver changes nothing else. -/
theorem baseInit_saver (v : Val) (h t : Args) (rest : Args) (hb : baseInit h rest = .ok t) :
    ∃ t', baseInit (put "saver" v h) [] = .ok t' ∧ find "saver" t' = some v ∧ ∀ n, n ≠ "saver" → find n t' = find n t := by
  obtain ⟨h1, h2, c, c', h3, h4, h5, rfl⟩ := (baseInit_ok h rest t).1 hb
  refine ⟨_, (baseInit_ok _ _ _).2 ⟨by rw [checkKeys_saver]; exact h1, rfl, c, c', ?_, ?_, h5, rfl⟩, ?_, ?_⟩
  · rw [get_put, if_neg (by decide)]; exact h3
  · rw [get_put, get_put, get_put, if_neg (by decide), if_neg (by decide), if_neg (by decide)]; exact h4
  · rw [find_put, if_neg (by decide), find_put, if_neg (by decide), find_put, if_neg (by decide), find_put, if_pos rfl]
  · intro n hn
    simp only [find_put, get_put, if_neg hn]
    rfl

/-- An agent which learns has a saver argument. -/
theorem handed_saver (k : Kind) (hc : k ≠ .constant) (hr : k ≠ .random) (e : Env) (h : Args) (hh : handed k e = .ok h) :
    find "saver" h = some (e "saver") := by
  cases k with
  | constant => exact (hc rfl).elim
  | random => exact (hr rfl).elim
  | tensorforce | dqn | doubleDqn | duelingDqn | dpg | ac | a2c => cases hh; rfl
  | vpg | trpo | ppo =>
    simp only [handed, gradientArgs] at hh
    repeat' split at hh
    all_goals cases hh
    all_goals rfl

/-! ### Places -/

theorem memory_place (e : Env) : look ["capacity"] (recentMemory e) = (match e "memory" with | .str "minimum" => none | m => some m) := by
  unfold recentMemory
  cases he : e "memory" with
  | str s =>
    by_cases hs : s = "minimum"
    · subst hs; rfl
    · have : (Val.str s).isStr "minimum" = false := by simpa [Val.isStr] using hs
      rw [this, if_neg (by decide)]
      split
      · rename_i h; injection h with h; exact (hs h).elim
      · rfl
  | _ => rfl

theorem memory_type (e : Env) : look ["type"] (recentMemory e) = some (.str "recent") := by
  unfold recentMemory
  split <;> rfl

/-- Every argument is passed on in its place. -/
theorem places_handed (k : Kind) (e : Env) (h : Args) (hh : handed k e = .ok h) : ∀ d ∈ places k e, look d.1 (.dict h) = d.2 := by
  cases k with
  | tensorforce | constant | random => exact nofun
  | dqn | doubleDqn | duelingDqn | dpg =>
    cases hh
    simp only [places]
    repeat' refine List.forall_mem_cons.2 ⟨rfl, ?_⟩
    exact nofun
  | ac | a2c =>
    cases hh
    simp only [places]
    refine List.forall_mem_cons.2 ⟨memory_type e, List.forall_mem_cons.2 ⟨memory_place e, ?_⟩⟩
    repeat' refine List.forall_mem_cons.2 ⟨rfl, ?_⟩
    exact nofun
  | vpg | trpo | ppo =>
    simp only [handed, gradientArgs] at hh
    cases hb : e "baseline" with
    | none =>
      simp only [hb, show Val.none.isNone = true from rfl, if_true] at hh
      split at hh
      · cases hh
      split at hh
      · cases hh
      cases hh
      simp only [places, hb]
      refine List.forall_mem_cons.2 ⟨memory_type e, List.forall_mem_cons.2 ⟨memory_place e, ?_⟩⟩
      repeat' refine List.forall_mem_cons.2 ⟨rfl, ?_⟩
      exact nofun
    | bool b | int b | float b | str b | dict b | other b =>
      rw [hb] at hh
      simp only [show ∀ b, (Val.bool b).isNone = false from fun _ => rfl, show ∀ b, (Val.int b).isNone = false from fun _ => rfl,
        show ∀ b, (Val.float b).isNone = false from fun _ => rfl, show ∀ b, (Val.str b).isNone = false from fun _ => rfl,
        show ∀ b, (Val.dict b).isNone = false from fun _ => rfl, show ∀ b, (Val.other b).isNone = false from fun _ => rfl,
        Bool.false_eq_true, if_false] at hh
      split at hh
      · cases hh
      cases hh
      simp only [places, hb]
      refine List.forall_mem_cons.2 ⟨memory_type e, List.forall_mem_cons.2 ⟨memory_place e, ?_⟩⟩
      repeat' refine List.forall_mem_cons.2 ⟨rfl, ?_⟩
      exact nofun

theorem same_handed (k : Kind) (hf : Fixed k) (e : Env) (h : Args) (hh : handed k e = .ok h) :
    ∀ n ∈ sameName, find n h = some (e n) := by
  obtain ⟨h1, h2, h3⟩ := hf
  cases k with
  | tensorforce => exact (h1 rfl).elim
  | constant => exact (h2 rfl).elim
  | random => exact (h3 rfl).elim
  | dqn | doubleDqn | duelingDqn | dpg | ac | a2c =>
    cases hh
    unfold sameName
    repeat' refine List.forall_mem_cons.2 ⟨rfl, ?_⟩
    exact nofun
  | vpg | trpo | ppo =>
    simp only [handed, gradientArgs] at hh
    repeat' split at hh
    all_goals cases hh
    all_goals unfold sameName
    all_goals repeat' refine List.forall_mem_cons.2 ⟨rfl, ?_⟩
    all_goals exact nofun

/-- Memory and update are dictionaries for the classes with fixed algorithm. -/
theorem handed_dicts (k : Kind) (hf : Fixed k) (e : Env) (h : Args) (hh : handed k e = .ok h) :
    (∃ m, find "memory" h = some (.dict m)) ∧ ∃ u, find "update" h = some (.dict u) := by
  obtain ⟨h1, h2, h3⟩ := hf
  have hm : ∃ m, recentMemory e = .dict m := by unfold recentMemory; split <;> exact ⟨_, rfl⟩
  obtain ⟨m, hm⟩ := hm
  cases k with
  | tensorforce => exact (h1 rfl).elim
  | constant => exact (h2 rfl).elim
  | random => exact (h3 rfl).elim
  | dqn | doubleDqn | duelingDqn | dpg => cases hh; exact ⟨⟨_, rfl⟩, ⟨_, rfl⟩⟩
  | ac | a2c => cases hh; exact ⟨⟨m, by rw [← hm]; rfl⟩, ⟨_, rfl⟩⟩
  | vpg | trpo | ppo =>
    simp only [handed, gradientArgs] at hh
    repeat' split at hh
    all_goals cases hh
    all_goals exact ⟨⟨m, by rw [← hm]; rfl⟩, ⟨_, rfl⟩⟩

/-- The Tensorforce agent only changes the configuration of the classes with fixed algorithm. -/
theorem target_fixed (k : Kind) (hf : Fixed k) (e : Env) (h rest t : Args) (hh : handed k e = .ok h) (ht : baseInit h rest = .ok t)
    (n : String) (hn : n ≠ "config") : find n t = find n h := by
  obtain ⟨⟨m, hm⟩, u, hu⟩ := handed_dicts k hf e h hh
  obtain ⟨_, _, c, c', _, _, _, rfl⟩ := (baseInit_ok h rest t).1 ht
  have h1 : memoryDefault (get "memory" h) = .dict m := by unfold get; rw [hm]; rfl
  have h2 : updateDefault (get "update" h) = .dict u := by unfold get; rw [hu]; rfl
  rw [h1, h2, find_put]
  by_cases e1 : n = "memory"
  · subst e1; rw [if_pos rfl, hm]
  · rw [if_neg e1, find_put]
    by_cases e2 : n = "update"
    · subst e2; rw [if_pos rfl, hu]
    · rw [if_neg e2, find_put, if_neg hn]

theorem look_find (n : String) (p : List String) (t h : Args) (e : find n t = find n h) :
    look (n :: p) (.dict t) = look (n :: p) (.dict h) := by
  unfold look
  rw [← find_eq_lookup, ← find_eq_lookup, e]

/-- No place is the configuration. -/
theorem places_head (k : Kind) (v : String → Val) : ∀ d ∈ places k v, ∃ n p, d.1 = n :: p ∧ n ≠ "config" := by
  cases k with
  | tensorforce | constant | random => exact nofun
  | dqn | doubleDqn | duelingDqn | dpg | ac | a2c =>
    simp only [places]
    repeat' refine List.forall_mem_cons.2 ⟨⟨_, _, rfl, by decide⟩, ?_⟩
    exact nofun
  | vpg | trpo | ppo =>
    simp only [places]
    intro d hd
    rw [List.mem_append] at hd
    rcases hd with hd | hd
    · revert d
      repeat' refine List.forall_mem_cons.2 ⟨⟨_, _, rfl, by decide⟩, ?_⟩
      exact nofun
    · revert d
      split
      all_goals repeat' refine List.forall_mem_cons.2 ⟨⟨_, _, rfl, by decide⟩, ?_⟩
      all_goals exact nofun

theorem places_congr (k : Kind) (v e : String → Val) (h : ∀ n, n ∈ names k → v n = e n) : places k v = places k e := by
  cases k with
  | tensorforce | constant | random => rfl
  | dqn | doubleDqn | duelingDqn | dpg | ac | a2c | vpg | trpo | ppo =>
    simp (disch := decide +kernel) only [places, h]

theorem same_known (k : Kind) (hf : Fixed k) : ∀ n ∈ sameName, n ∈ names k := by
  obtain ⟨h1, h2, h3⟩ := hf
  cases k with
  | tensorforce => exact (h1 rfl).elim
  | constant => exact (h2 rfl).elim
  | random => exact (h3 rfl).elim
  | dqn | doubleDqn | duelingDqn | dpg | ac | a2c | vpg | trpo | ppo => decide +kernel

/-! ### Documented arguments -/

theorem documented_names (k : Kind) : ∀ n ∈ (defaults k).map (·.1), n ∈ names k := by
  cases k <;> decide +kernel

theorem names_documented (k : Kind) : ∀ n ∈ names k, n ∈ (defaults k).map (·.1) := by
  cases k <;> decide +kernel

theorem lookup_mem {β : Type} (l : List (String × β)) (n : String) : (l.lookup n).isSome = true ↔ n ∈ l.map (·.1) := by
  induction l with
  | nil => simp
  | cons p l ih =>
    obtain ⟨k, v⟩ := p
    rw [List.lookup_cons, List.map_cons, List.mem_cons]
    by_cases h : n = k
    · subst h; simp
    · have : (n == k) = false := by simpa using h
      rw [this]
      simp only [ih, h, false_or]

theorem documented (k : Kind) (n : String) (h : ((defaults k).lookup n).isSome = true) : n ∈ names k :=
  documented_names k n ((lookup_mem _ n).1 h)

theorem known_documented (k : Kind) (n : String) (h : n ∈ names k) : ((defaults k).lookup n).isSome = true :=
  (lookup_mem _ n).2 (names_documented k n h)

theorem missing_none (k : Kind) (args : Args) (h : missing k args = none) (n : String) (hn : (n, none) ∈ params k) :
    (args.lookup n).isSome = true := by
  unfold missing at h
  rw [Option.map_eq_none_iff, List.find?_eq_none] at h
  have := h _ hn
  rw [← find_eq_lookup]
  cases hf : find n args with
  | none => exact absurd (by simp [hf]) this
  | some v => rfl

theorem required_params (k : Kind) : ∀ n ∈ required k, (n, none) ∈ params k := by
  cases k <;> simp [required, params, dqnParams, dpgParams, acParams, a2cParams, vpgParams, trpoParams, ppoParams, req]

theorem handed_config (k : Kind) (e : Env) (h : Args) (hh : handed k e = .ok h) : get "config" h = e "config" := by
  cases k with
  | tensorforce | constant | random | dqn | doubleDqn | duelingDqn | dpg | ac | a2c => cases hh; rfl
  | vpg | trpo | ppo =>
    simp only [handed, gradientArgs] at hh
    repeat' split at hh
    all_goals cases hh
    all_goals rfl

/-- Only `buffer_observe` is changed. -/
theorem bufferConfig_cases (p u m : Val) (c c' : Args) (h : bufferConfig p u m c = .ok c') :
    c' = c ∨ ∃ v, c' = put "buffer_observe" v c := by
  unfold bufferConfig at h
  cases hg : greater 1 p with
  | error x => rw [hg] at h; cases h
  | ok b =>
    rw [hg] at h
    simp only [bind, Except.bind] at h
    split at h
    · split at h
      · split at h
        · cases h
        · cases h; exact .inr ⟨_, rfl⟩
      · cases h; exact .inl rfl
    · cases hi : index "unit" u with
      | error x => rw [hi] at h; cases h
      | ok unit =>
        rw [hi] at h
        simp only at h
        split at h
        · cases hs : index "batch_size" u with
          | error x => rw [hs] at h; cases h
          | ok size =>
            rw [hs] at h
            simp only at h
            split at h
            · split at h <;> (cases h; exact .inr ⟨_, rfl⟩)
            · split at h
              · split at h
                · cases h
                · split at h
                  · cases h
                  · split at h
                    · cases h
                    · cases h; exact .inl rfl
              · cases h; exact .inl rfl
        · split at h
          · split at h
            · cases h; exact .inr ⟨_, rfl⟩
            · cases h; exact .inl rfl
          · cases h; exact .inl rfl

theorem bufferConfig_find (p u m : Val) (c c' : Args) (h : bufferConfig p u m c = .ok c') (n : String) (hn : n ≠ "buffer_observe") :
    find n c' = find n c := by
  rcases bufferConfig_cases p u m c c' h with rfl | ⟨v, rfl⟩
  · rfl
  · rw [find_put, if_neg hn]

theorem recentMemory_injective (e e' : Env) (h : recentMemory e = recentMemory e') : e "memory" = e' "memory" := by
  have h1 := memory_place e
  rw [h, memory_place e'] at h1
  split at h1
  · rename_i hm
    split at h1
    · rename_i hm'; rw [hm, hm']
    · cases h1
  · split at h1
    · cases h1
    · exact (Option.some.inj h1).symm

/-- Where an argument is found. -/
def pathOf : List (String × List String) :=
  [("memory", ["memory", "capacity"]), ("batch_size", ["update", "batch_size"]), ("network", ["policy", "network"]),
    ("use_beta_distribution", ["policy", "use_beta_distribution"]), ("update_frequency", ["update", "frequency"]),
    ("start_updating", ["update", "start"]), ("learning_rate", ["optimizer", "learning_rate"]),
    ("linesearch_iterations", ["optimizer", "linesearch_iterations"]), ("subsampling_fraction", ["optimizer", "subsampling_fraction"]),
    ("multi_step", ["optimizer", "multi_step"]), ("likelihood_ratio_clipping", ["objective", "clipping_value"]),
    ("huber_loss", ["objective", "huber_loss"]), ("horizon", ["reward_estimation", "horizon"]), ("discount", ["reward_estimation", "discount"]),
    ("return_processing", ["reward_estimation", "return_processing"]), ("reward_processing", ["reward_estimation", "reward_processing"]),
    ("predict_terminal_values", ["reward_estimation", "predict_terminal_values"]),
    ("advantage_processing", ["reward_estimation", "advantage_processing"]),
    ("target_update_weight", ["baseline_optimizer", "update_weight"]), ("target_sync_frequency", ["baseline_optimizer", "sync_frequency"]),
    ("critic", ["baseline", "network"]), ("critic_optimizer", ["baseline_optimizer"]), ("baseline", ["baseline", "network"]),
    ("baseline_optimizer", ["baseline_optimizer"])]

/-- Arguments of a class apart from `sameName`, the memory, and those which depend on the baseline. -/
def own : Kind → List String
  | .tensorforce | .constant | .random => []
  | .dqn | .doubleDqn | .duelingDqn =>
    ["memory", "batch_size", "network", "update_frequency", "start_updating", "learning_rate", "huber_loss", "horizon", "discount",
      "reward_processing", "return_processing", "predict_terminal_values", "target_update_weight", "target_sync_frequency"]
  | .dpg =>
    ["memory", "batch_size", "network", "use_beta_distribution", "update_frequency", "start_updating", "learning_rate", "horizon",
      "discount", "reward_processing", "return_processing", "predict_terminal_values", "critic", "critic_optimizer"]
  | .ac | .a2c =>
    ["batch_size", "network", "use_beta_distribution", "update_frequency", "learning_rate", "horizon",
      "discount", "reward_processing", "return_processing", "predict_terminal_values", "critic", "critic_optimizer"]
  | .vpg =>
    ["batch_size", "network", "use_beta_distribution", "update_frequency", "learning_rate", "discount", "reward_processing", "return_processing"]
  | .trpo =>
    ["batch_size", "network", "use_beta_distribution", "update_frequency", "learning_rate", "linesearch_iterations", "subsampling_fraction",
      "discount", "reward_processing", "return_processing"]
  | .ppo =>
    ["batch_size", "network", "use_beta_distribution", "update_frequency", "learning_rate", "multi_step", "subsampling_fraction",
      "likelihood_ratio_clipping", "discount", "reward_processing", "return_processing"]

theorem own_names (k : Kind) (hf : Fixed k) : ∀ n ∈ names k, n ∈ sameName ∨ n ∈ own k ∨ n = "memory" ∨
    (k = .a2c ∧ n = "advantage_processing") ∨
    (k ∈ [.vpg, .trpo, .ppo] ∧ n ∈ ["advantage_processing", "predict_terminal_values", "baseline", "baseline_optimizer"]) := by
  obtain ⟨h1, h2, h3⟩ := hf
  cases k with
  | tensorforce => exact (h1 rfl).elim
  | constant => exact (h2 rfl).elim
  | random => exact (h3 rfl).elim
  | dqn | doubleDqn | duelingDqn | dpg | ac | a2c | vpg | trpo | ppo => decide +kernel

theorem own_places (k : Kind) (v : String → Val) : ∀ n ∈ own k, ∃ p, pathOf.lookup n = some p ∧ (p, some (v n)) ∈ places k v := by
  cases k with
  | tensorforce | constant | random => exact nofun
  | dqn | doubleDqn | duelingDqn | dpg | ac | a2c | vpg | trpo | ppo =>
    unfold own
    repeat' refine List.forall_mem_cons.2 ⟨⟨_, rfl, by simp [places]⟩, ?_⟩
    exact nofun

theorem baseline_places (k : Kind) (hk : HasBaseline k) (v : String → Val) :
    (v "baseline" = .none → (["baseline"], some .none) ∈ places k v ∧ (["baseline_optimizer"], some .none) ∈ places k v) ∧
    (v "baseline" ≠ .none → ∀ n ∈ ["advantage_processing", "predict_terminal_values", "baseline", "baseline_optimizer"],
      ∃ p, pathOf.lookup n = some p ∧ (p, some (v n)) ∈ places k v) := by
  constructor
  · intro hb
    rcases hk with rfl | rfl | rfl <;> simp [places, hb]
  · intro hb
    cases hv : v "baseline" with
    | none => exact (hb hv).elim
    | bool b | int b | float b | str b | dict b | other b =>
      rcases hk with rfl | rfl | rfl
      all_goals
        repeat' refine List.forall_mem_cons.2 ⟨⟨_, rfl, by simp [places, hv]⟩, ?_⟩
        exact nofun

/-- Without baseline there is no optimizer of the baseline. -/
theorem handed_optimizer (k : Kind) (hk : HasBaseline k) (e : Env) (h : Args) (hh : handed k e = .ok h) :
    (e "baseline" = .none ↔ e "baseline_optimizer" = .none) ∧ (e "baseline" = .none → (e "predict_terminal_values").truthy = false) := by
  have hn : ∀ v : Val, v.isNone = true ↔ v = .none := by intro v; cases v <;> simp [Val.isNone]
  have key : ∀ o b, gradientArgs o b e = .ok h →
      (e "baseline" = .none ↔ e "baseline_optimizer" = .none) ∧ (e "baseline" = .none → (e "predict_terminal_values").truthy = false) := by
    intro o b hh
    simp only [gradientArgs] at hh
    split at hh
    · rename_i hb
      split at hh
      · cases hh
      · rename_i ht
        split at hh
        · cases hh
        · rename_i ho
          have hb := (hn _).1 hb
          have ho : e "baseline_optimizer" = .none := (hn _).1 (by simpa using ho)
          exact ⟨⟨fun _ => ho, fun _ => hb⟩, fun _ => by simpa using ht⟩
    · rename_i hb
      split at hh
      · cases hh
      · rename_i ho
        have hb : e "baseline" ≠ .none := fun x => hb ((hn _).2 x)
        have ho : e "baseline_optimizer" ≠ .none := fun x => ho ((hn _).2 x)
        exact ⟨⟨fun x => (hb x).elim, fun x => (ho x).elim⟩, fun x => (hb x).elim⟩
  rcases hk with rfl | rfl | rfl
  · exact key _ _ hh
  · exact key _ _ hh
  · exact key _ _ hh

/-- The arguments are determined by what is passed on. -/
theorem handed_injective (k : Kind) (hf : Fixed k) (e e' : Env) (h h' : Args) (hh : handed k e = .ok h) (hh' : handed k e' = .ok h')
    (heq : ∀ n, n ≠ "config" → find n h = find n h') (n : String) (hn : n ∈ names k) (hc : n ≠ "config")
    (h1 : k = .a2c → n ≠ "advantage_processing")
    (h2 : HasBaseline k → e "baseline" = .none → n ≠ "advantage_processing" ∧ n ≠ "predict_terminal_values") :
    e n = e' n := by
  have hlook : ∀ d ∈ places k e, look d.1 (.dict h') = d.2 := by
    intro d hd
    obtain ⟨m, p, he, hm⟩ := places_head k e d hd
    rw [← places_handed k e h hh d hd, he]
    exact (look_find m p h h' (heq m hm)).symm
  have hpath : ∀ p v v', (p, some v) ∈ places k e → (p, some v') ∈ places k e' → v = v' := by
    intro p v v' hv hv'
    have q := hlook _ hv
    rw [places_handed k e' h' hh' _ hv'] at q
    exact (Option.some.inj q).symm
  rcases own_names k hf n hn with hs | ho | rfl | ⟨hk, rfl⟩ | ⟨hk, hn'⟩
  · have q := heq n hc
    rw [same_handed k hf e h hh n hs, same_handed k hf e' h' hh' n hs] at q
    exact Option.some.inj q
  · obtain ⟨p, hp, hm⟩ := own_places k e n ho
    obtain ⟨p', hp', hm'⟩ := own_places k e' n ho
    rw [hp] at hp'
    cases hp'
    exact hpath p _ _ hm hm'
  · by_cases ho : "memory" ∈ own k
    · obtain ⟨p, hp, hm⟩ := own_places k e _ ho
      obtain ⟨p', hp', hm'⟩ := own_places k e' _ ho
      rw [hp] at hp'
      cases hp'
      exact hpath p _ _ hm hm'
    · have hmem : ∀ v, (["memory", "capacity"], (match v "memory" with | .str "minimum" => none | m => some m)) ∈ places k v := by
        intro v
        obtain ⟨q1, q2, q3⟩ := hf
        cases k with
        | tensorforce => exact (q1 rfl).elim
        | constant => exact (q2 rfl).elim
        | random => exact (q3 rfl).elim
        | dqn | doubleDqn | duelingDqn | dpg => exact (ho (by decide +kernel)).elim
        | ac | a2c | vpg | trpo | ppo => exact List.mem_cons_of_mem _ List.mem_cons_self
      have q := hlook _ (hmem e)
      rw [places_handed k e' h' hh' _ (hmem e')] at q
      dsimp only at q
      split at q
      · rename_i hm
        split at q
        · rename_i hm'; rw [hm, hm']
        · cases q
      · split at q
        · cases q
        · exact (Option.some.inj q).symm
  · exact (h1 hk rfl).elim
  · have hk : HasBaseline k := by
      simp only [List.mem_cons, List.not_mem_nil, or_false] at hk
      exact hk
    have hnone : ∀ x x' g g', handed k x = .ok g → handed k x' = .ok g' → (∀ n, n ≠ "config" → find n g = find n g') →
        x "baseline" = .none → x' "baseline" = .none := by
      intro x x' g g' q q' hg hx
      rcases Classical.em (x' "baseline" = .none) with hx' | hx'
      · exact hx'
      · exfalso
        have r := places_handed k x g q _ ((baseline_places k hk x).1 hx).1
        obtain ⟨p, hp, hm⟩ := (baseline_places k hk x').2 hx' "baseline" (by simp)
        cases hp
        have r' := places_handed k x' g' q' _ hm
        dsimp only at r r'
        rw [look_find "baseline" [] g g' (hg _ (by decide))] at r
        unfold look at r r'
        cases hl : List.lookup "baseline" g' with
        | none => rw [hl] at r; cases r
        | some y =>
          rw [hl] at r r'
          cases r
          cases r'
    by_cases hb : e "baseline" = .none
    · have hb' := hnone e e' h h' hh hh' heq hb
      simp only [List.mem_cons, List.not_mem_nil, or_false] at hn'
      rcases hn' with rfl | rfl | rfl | rfl
      · exact ((h2 hk hb).1 rfl).elim
      · exact ((h2 hk hb).2 rfl).elim
      · rw [hb, hb']
      · rw [(handed_optimizer k hk e h hh).1.1 hb, (handed_optimizer k hk e' h' hh').1.1 hb']
    · have hb' : e' "baseline" ≠ .none := fun x => hb (hnone e' e h' h hh' hh (fun n hn => (heq n hn).symm) x)
      obtain ⟨p, hp, hm⟩ := (baseline_places k hk e).2 hb n hn'
      obtain ⟨p', hp', hm'⟩ := (baseline_places k hk e').2 hb' n hn'
      rw [hp] at hp'
      cases hp'
      exact hpath p _ _ hm hm'

/-! ### Advantage processing -/

/-- The advantage processing is not used by A2C agents, and not without baseline. -/
theorem handed_advantage (k : Kind) (e e' : Env) (hk : k = .a2c ∨ (HasBaseline k ∧ e "baseline" = .none))
    (he : ∀ n, n ≠ "advantage_processing" → e n = e' n) : handed k e = handed k e' := by
  have hs : ∀ p m u o ob r b bo bb, superArgs e p m u o ob r b bo bb = superArgs e' p m u o ob r b bo bb := by
    intro p m u o ob r b bo bb
    unfold superArgs
    simp (disch := decide) only [he]
  have key : ∀ o ob, e "baseline" = .none → gradientArgs o ob e = gradientArgs o ob e' := by
    intro o ob hb
    have hb' : e' "baseline" = .none := by rw [← he _ (by decide)]; exact hb
    simp only [gradientArgs, hb, hb', show Val.none.isNone = true from rfl, if_true, hs, distributions, recentMemory]
    simp (disch := decide) only [he]
  rcases hk with rfl | ⟨hk, hb⟩
  · simp only [handed, criticArgs, hs, distributions, recentMemory]
    simp (disch := decide) only [he]
  · rcases hk with rfl | rfl | rfl
    · simp only [handed, key _ _ hb, vpgOptimizer]
      simp (disch := decide) only [he]
    · simp only [handed, key _ _ hb, trpoOptimizer]
      simp (disch := decide) only [he]
    · simp only [handed, key _ _ hb, ppoOptimizer, ppoObjective]
      simp (disch := decide) only [he]

theorem env_cons (k : Kind) (args : Args) (m : String) (v : Val) (n : String) (hn : n ≠ m) : env k ((m, v) :: args) n = env k args n := by
  unfold env valueOf
  split
  · rfl
  · rw [find, if_neg (fun e => hn e.symm)]

theorem missing_cons (k : Kind) (args : Args) (m : String) (v v' : Val) : missing k ((m, v) :: args) = missing k ((m, v') :: args) := by
  unfold missing
  congr 2
  funext p
  congr 1
  unfold find
  split <;> rfl

theorem extra_cons (k : Kind) (args : Args) (m : String) (v v' : Val) (hm : m ∈ names k) :
    extra k ((m, v) :: args) = extra k ((m, v') :: args) := by
  unfold extra
  rw [List.filter_cons_of_neg (by simpa using hm), List.filter_cons_of_neg (by simpa using hm)]

end Verif.Family
