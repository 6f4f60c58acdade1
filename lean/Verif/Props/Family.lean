import Verif.Family.PlaceLemmas

/-!
# Properties C101 (saved agents), C102 (arguments arrive), C103 (no argument is ignored)
-/

namespace Verif.Props.Family

open Verif.Family

/-! ## C101 -/

/-- The value of `saver` of a loaded agent: parameters are loaded. -/
def WithLoad (v v' : Val) : Prop :=
  match v with
  | .dict items => ∃ items', v' = .dict items' ∧ items'.lookup "load" = some (.bool true) ∧
      ∀ n, n ≠ "load" → items'.lookup n = items.lookup n
  | v => v' = v

private theorem withLoad (v : Val) : WithLoad v (loadVal v) := by
  cases v with
  | dict items =>
    refine ⟨_, rfl, ?_, fun n hn => ?_⟩
    · rw [← find_eq_lookup, find_put, if_pos rfl]
    · rw [← find_eq_lookup, find_put, if_neg hn, find_eq_lookup]
  | _ => rfl

private theorem isDefault (k : Kind) (args : Args) (n : String) (h : IsDefault k args n) :
    Value k args n = ((defaults k).lookup n).getD .none := by
  unfold Value arg
  rcases h with h | h <;> rw [h] <;> rfl

private theorem spec_of (w : World) (k : Kind) (args : Args) (a : Agent) (h : make w k args = .ok a) :
    a.kind = k ∧ a.spec = saved k (env k args) := by
  by_cases hs : k = .constant ∨ k = .random
  · obtain ⟨_, _, h, _, rfl⟩ := (make_simple w k hs args a).1 h
    exact ⟨rfl, rfl⟩
  · rw [not_or] at hs
    obtain ⟨_, _, h, t, _, _, _, _, rfl⟩ := (make_learning w k hs.1 hs.2 args a).1 h
    exact ⟨rfl, rfl⟩

/-- The number of timesteps is taken from the environment if it was not given; otherwise the environment does not matter. -/
private theorem limit_ok (k : Kind) (args : Args) (limit : Option Int)
    (hl : limit = none ∨ Value k args "max_episode_timesteps" ≠ .none) :
    limit = none ∨ (Verif.Family.get "max_episode_timesteps" (saved k (env k args))).isNone = false := by
  refine hl.imp id fun h => ?_
  have hn : "max_episode_timesteps" ∈ names k ∧ "max_episode_timesteps" ∈ savedNames k := by cases k <;> decide +kernel
  have : Verif.Family.get "max_episode_timesteps" (saved k (env k args)) = Value k args "max_episode_timesteps" := by
    unfold Verif.Family.get saved
    rw [find, if_neg (by decide), find_pick, if_pos hn.2, env_value k args _ hn.1]; rfl
  rw [this]
  cases hv : Value k args "max_episode_timesteps" with
  | none => exact (h hv).elim
  | _ => rfl

/-- C101: a saved agent is loaded as an agent of the same class with the same arguments for the model, except that the saver loads.
Missing: Double DQN agents (`double_violation`), a reward processing (`reward_violation`), line search iterations and subsampling fraction of TRPO
(`trpo_violation`), arguments which JSON cannot encode (`encodable_violation`). -/
theorem loaded_partial (w : World) (k : Kind) (hk : k ≠ .doubleDqn) (args : Args) (a : Agent) (h : make w k args = .ok a)
    (henc : w.encodable a.spec = true) (hr : Fixed k → IsDefault k args "reward_processing")
    (ht : k = .trpo → IsDefault k args "linesearch_iterations" ∧ IsDefault k args "subsampling_fraction")
    (limit : Option Int) (hl : limit = none ∨ Value k args "max_episode_timesteps" ≠ .none) :
    ∃ b, load w (stored w a) limit = .ok b ∧ b.kind = k ∧ (∀ n, n ≠ "saver" → b.target.lookup n = a.target.lookup n) ∧
      (k ≠ .constant ∧ k ≠ .random → WithLoad (Value k args "saver") ((b.target.lookup "saver").getD .none)) := by
  have hlost : ∀ n ∈ lost k, Value k args n = ((defaults k).lookup n).getD .none := by
    intro n hn
    by_cases htr : k = .trpo
    · subst htr
      have hn : n ∈ ["linesearch_iterations", "subsampling_fraction", "reward_processing"] := hn
      simp only [List.mem_cons, List.not_mem_nil, or_false] at hn
      rcases hn with rfl | rfl | rfl
      · exact isDefault _ _ _ (ht rfl).1
      · exact isDefault _ _ _ (ht rfl).2
      · exact isDefault _ _ _ (hr ⟨by decide, by decide, by decide⟩)
    · by_cases hf : Fixed k
      · have hn : n ∈ ["reward_processing"] := by
          revert hn
          cases k with
          | tensorforce | constant | random => exact nofun
          | trpo => exact (htr rfl).elim
          | dqn | doubleDqn | duelingDqn | dpg | ac | a2c | vpg | ppo => exact id
        simp only [List.mem_cons, List.not_mem_nil, or_false] at hn
        subst hn
        exact isDefault _ _ _ (hr hf)
      · exfalso
        revert hn
        unfold Fixed at hf
        cases k with
        | tensorforce | constant | random => exact nofun
        | dqn | doubleDqn | duelingDqn | dpg | ac | a2c | vpg | trpo | ppo => exact (hf ⟨nofun, nofun, nofun⟩).elim
  have hsp := (spec_of w k args a h).2
  have hst : stored w a = saved k (env k args) ++ [("internals", .other 0), ("initial_internals", .other 1)] := by
    unfold stored
    rw [if_pos henc, hsp]
  rw [hst, load_reload w k (env k args) limit (limit_ok k args limit hl), if_neg hk]
  have henv := reload_env k args hlost
  by_cases hs : k = .constant ∨ k = .random
  · obtain ⟨_, _, hd, hh, rfl⟩ := (make_simple w k hs args a).1 h
    have hns : "saver" ∉ names k := by rcases hs with rfl | rfl <;> decide +kernel
    have hle : loadEnv (env k args) = env k args := by
      funext n
      unfold loadEnv
      split
      · rename_i e; subst e; rw [env_not k args _ hns]; rfl
      · rfl
    rw [hle] at henv
    refine ⟨_, (make_simple w k hs _ _).2 ⟨reload_missing k _, reload_extra k _, hd, by rw [henv]; exact hh, rfl⟩, rfl, fun _ _ => rfl,
      fun h => ?_⟩
    rcases hs with e | e
    · exact (h.1 e).elim
    · exact (h.2 e).elim
  · rw [not_or] at hs
    obtain ⟨_, _, hd, t, hh, _, hb, hw, rfl⟩ := (make_learning w k hs.1 hs.2 args a).1 h
    obtain ⟨t', ht1, ht2, ht3⟩ := baseInit_saver (loadVal (env k args "saver")) hd t _ hb
    have hact : loadEnv (env k args) "actions" = env k args "actions" := loadEnv_ne _ _ (by decide)
    refine ⟨⟨k, _, put "saver" (loadVal (env k args "saver")) hd, t'⟩, (make_learning w k hs.1 hs.2 _ _).2 ⟨reload_missing k _, ?_, _, t', ?_, ?_, ?_, ?_, rfl⟩, rfl, ?_, ?_⟩
    · rw [reload_extra, List.find?_eq_none]; intro n _ hn; cases hn
    · rw [henv, handed_load k hs.1 hs.2, hh]; rfl
    · rw [reload_extra]; rfl
    · rw [reload_extra]; exact ht1
    · rw [henv, hact]; exact hw
    · intro n hn
      rw [← find_eq_lookup, ← find_eq_lookup]; exact ht3 n hn
    · intro _
      rw [← find_eq_lookup, ht2]
      have hns : "saver" ∈ names k := by
        revert hs; cases k <;> first | exact fun h => (h.1 rfl).elim | exact fun h => (h.2 rfl).elim | exact fun _ => by decide +kernel
      rw [env_value k args _ hns]
      exact withLoad _

/-! ### Examples -/

private def world : World := ⟨fun _ => true, fun _ => true⟩

private def dqnExample : Args :=
  [("states", .other 1), ("actions", .other 2), ("memory", .int 1000), ("batch_size", .int 32), ("learning_rate", .float (1 / 100)),
    ("saver", .dict [("directory", .str "d")])]

/-- An agent is created. -/
private def fine {α : Type} (x : Except Err α) : Bool := match x with | .ok _ => true | .error _ => false

example : fine (make world .dqn dqnExample) = true ∧ IsDefault .dqn dqnExample "reward_processing" := ⟨by decide +kernel, .inl rfl⟩

/-- Violation: a Double DQN agent is loaded as a DQN agent. -/
theorem double_violation (w : World) (args : Args) (a : Agent) (h : make w .doubleDqn args = .ok a) (henc : w.encodable a.spec = true)
    (b : Agent) (hb : load w (stored w a) none = .ok b) : b.kind = .dqn := by
  have hsp := (spec_of w .doubleDqn args a h).2
  have hst : stored w a = saved .doubleDqn (env .doubleDqn args) ++ [("internals", .other 0), ("initial_internals", .other 1)] := by
    unfold stored
    rw [if_pos henc, hsp]
  rw [hst, load_reload w _ _ none (.inl rfl), if_pos rfl] at hb
  exact (spec_of w _ _ b hb).1

example : fine (make world .doubleDqn dqnExample) = true := by decide +kernel

/-- Every argument which a class has is passed on in its documented place, or its documented default. -/
private theorem placed (w : World) (k : Kind) (hf : Fixed k) (args : Args) (a : Agent) (h : make w k args = .ok a) :
    ∀ d ∈ places k (Value k args), look d.1 (.dict a.target) = d.2 := by
  obtain ⟨_, _, hd, t, hh, _, hb, _, rfl⟩ := (make_learning w k hf.2.1 hf.2.2 args a).1 h
  rw [places_congr k _ (env k args) (fun n hn => (env_value k args n hn).symm)]
  intro d hd'
  obtain ⟨n, p, he, hn⟩ := places_head k _ d hd'
  rw [← places_handed k _ hd hh d hd', he]
  exact look_find n p t hd (target_fixed k hf _ hd _ t hh hb n hn)

/-- Violation: the reward processing of an agent with fixed algorithm is lost. -/
theorem reward_violation (w : World) (k : Kind) (hf : Fixed k) (args : Args) (a : Agent) (h : make w k args = .ok a)
    (henc : w.encodable a.spec = true) (b : Agent) (hb : load w (stored w a) none = .ok b) :
    look ["reward_estimation", "reward_processing"] (.dict a.target) = some (Value k args "reward_processing") ∧
    look ["reward_estimation", "reward_processing"] (.dict b.target) = some .none := by
  have hpl : ∀ k, Fixed k → ∀ v, (["reward_estimation", "reward_processing"], some (v "reward_processing")) ∈ places k v := by
    intro k hf v
    obtain ⟨h1, h2, h3⟩ := hf
    cases k with
    | tensorforce => exact (h1 rfl).elim
    | constant => exact (h2 rfl).elim
    | random => exact (h3 rfl).elim
    | dqn | doubleDqn | duelingDqn | dpg | ac | a2c => simp [places]
    | vpg | trpo | ppo => simp [places]
  refine ⟨placed w k hf args a h _ (hpl k hf _), ?_⟩
  have hsp := (spec_of w k args a h).2
  have hst : stored w a = saved k (env k args) ++ [("internals", .other 0), ("initial_internals", .other 1)] := by
    unfold stored
    rw [if_pos henc, hsp]
  rw [hst, load_reload w _ _ none (.inl rfl)] at hb
  have hf' : Fixed (if k = .doubleDqn then .dqn else k) := by
    split
    · exact ⟨nofun, nofun, nofun⟩
    · exact hf
  have := placed w _ hf' _ b hb _ (hpl _ hf' _)
  rw [this]
  have hnot : "reward_processing" ∉ savedNames k := by
    obtain ⟨h1, h2, h3⟩ := hf
    cases k with
    | tensorforce => exact (h1 rfl).elim
    | constant => exact (h2 rfl).elim
    | random => exact (h3 rfl).elim
    | dqn | doubleDqn | duelingDqn | dpg | ac | a2c | vpg | trpo | ppo => decide +kernel
  have hl : (reload (saved k (env k args))).lookup "reward_processing" = none := by
    rw [← find_eq_lookup, find_reload _ _ _ (by decide) (by decide) (by decide) (by decide), if_neg hnot]
  unfold Value arg
  rw [hl]
  obtain ⟨h1, h2, h3⟩ := hf
  cases k with
  | tensorforce => exact (h1 rfl).elim
  | constant => exact (h2 rfl).elim
  | random => exact (h3 rfl).elim
  | dqn | doubleDqn | duelingDqn | dpg | ac | a2c | vpg | trpo | ppo => rfl

example : fine (make world .dqn (("reward_processing", .str "clipping") :: dqnExample)) = true := by decide +kernel

/-- Violation: a TRPO agent is loaded with the default line search iterations and subsampling fraction. -/
theorem trpo_violation (w : World) (args : Args) (a : Agent) (h : make w .trpo args = .ok a)
    (henc : w.encodable a.spec = true) (b : Agent) (hb : load w (stored w a) none = .ok b) :
    look ["optimizer", "linesearch_iterations"] (.dict a.target) = some (Value .trpo args "linesearch_iterations") ∧
    look ["optimizer", "linesearch_iterations"] (.dict b.target) = some (.int 10) ∧
    look ["optimizer", "subsampling_fraction"] (.dict a.target) = some (Value .trpo args "subsampling_fraction") ∧
    look ["optimizer", "subsampling_fraction"] (.dict b.target) = some (.float 1) := by
  have hf : Fixed .trpo := ⟨nofun, nofun, nofun⟩
  have hpl : ∀ v, (["optimizer", "linesearch_iterations"], some (v "linesearch_iterations")) ∈ places .trpo v ∧
      (["optimizer", "subsampling_fraction"], some (v "subsampling_fraction")) ∈ places .trpo v := by
    intro v
    constructor <;> simp [places]
  have hsp := (spec_of w .trpo args a h).2
  have hst : stored w a = saved .trpo (env .trpo args) ++ [("internals", .other 0), ("initial_internals", .other 1)] := by
    unfold stored
    rw [if_pos henc, hsp]
  rw [hst, load_reload w _ _ none (.inl rfl), if_neg (by decide)] at hb
  have hl : ∀ n ∈ ["linesearch_iterations", "subsampling_fraction"], (reload (saved .trpo (env .trpo args))).lookup n = none := by
    intro n hn
    simp only [List.mem_cons, List.not_mem_nil, or_false] at hn
    rcases hn with rfl | rfl <;>
    rw [← find_eq_lookup, find_reload _ _ _ (by decide) (by decide) (by decide) (by decide), if_neg (by decide +kernel)]
  refine ⟨placed w _ hf _ a h _ (hpl _).1, (placed w _ hf _ b hb _ (hpl _).1).trans ?_, placed w _ hf _ a h _ (hpl _).2,
    (placed w _ hf _ b hb _ (hpl _).2).trans ?_⟩
  · unfold Value arg; rw [hl _ (by simp)]; rfl
  · unfold Value arg; rw [hl _ (by simp)]; rfl

private def trpoExample : Args :=
  [("states", .other 1), ("actions", .other 2), ("max_episode_timesteps", .int 100), ("batch_size", .int 10),
    ("linesearch_iterations", .int 20), ("subsampling_fraction", .float (1 / 2))]

example : fine (make world .trpo trpoExample) = true := by decide +kernel

/-- Violation: an agent with an argument which JSON cannot encode (a function as layer, an environment object) cannot be loaded; an unrelated
argument is reported as missing. -/
theorem encodable_violation (w : World) (k : Kind) (args : Args) (a : Agent) (_h : make w k args = .ok a) (henc : w.encodable a.spec = false)
    (limit : Option Int) : load w (stored w a) limit = .error (.missing "update") := by
  unfold stored
  rw [if_neg (by simp [henc])]
  cases limit <;> rfl

example : fine (make world .ppo trpoExample) = false ∧ fine (make world .vpg (trpoExample.take 4)) = true := by decide +kernel

/-! ## C102 -/

/-- C102: for the classes with fixed algorithm, every argument is passed on in its documented place, given or with its documented default.
Missing: the documented default of the critic of `dpg` is none, but "auto" is used (`critic_violation`); the default of `buffer_observe` is set in
the configuration (C105). -/
theorem placed_partial (w : World) (k : Kind) (hf : Fixed k) (args : Args) (a : Agent) (h : make w k args = .ok a) :
    (∀ d ∈ places k (Value k args), look d.1 (.dict a.target) = d.2) ∧
    ∀ n ∈ sameName, n ≠ "config" → look [n] (.dict a.target) = some (Value k args n) := by
  refine ⟨placed w k hf args a h, fun n hn hc => ?_⟩
  obtain ⟨_, _, hd, t, hh, _, hb, _, rfl⟩ := (make_learning w k hf.2.1 hf.2.2 args a).1 h
  rw [look_find n [] t hd (target_fixed k hf _ hd _ t hh hb n hc)]
  have hk : n ∈ names k := same_known k hf n hn
  have := same_handed k hf _ hd hh n hn
  unfold look
  rw [← find_eq_lookup, this, env_value k args n hk]
  rfl

example : (places .ppo (Value .ppo (trpoExample.take 4))).length = 25 := by rfl

/-- C102: the arguments of a constant or random agent are passed on. -/
theorem simple_placed (w : World) (k : Kind) (hk : k = .constant ∨ k = .random) (args : Args) (a : Agent) (h : make w k args = .ok a)
    (n : String) (hn : ((defaults k).lookup n).isSome = true) : look [n] (.dict a.target) = some (Value k args n) := by
  obtain ⟨_, _, hd, hh, rfl⟩ := (make_simple w k hk args a).1 h
  have hm := documented k n hn
  unfold look
  rw [← find_eq_lookup]
  have : find n hd = some (env k args n) := by
    rcases hk with rfl | rfl
    · cases hh
      rw [find_append, find_pick, if_pos hm]; rfl
    · cases hh
      rw [find_append, find_pick, if_pos hm]; rfl
  dsimp only
  rw [this, env_value k args n hm]
  rfl

example : fine (make world .constant [("states", .other 1), ("actions", .other 2), ("action_values", .other 3)]) = true := by decide +kernel

/-- C102: the arguments of a Tensorforce agent are passed on; without memory a recent memory is used, an integer as update is a number of timesteps. -/
theorem base_placed (w : World) (args : Args) (a : Agent) (h : make w .tensorforce args = .ok a) (n : String)
    (hn : ((defaults .tensorforce).lookup n).isSome = true) (hc : n ≠ "config") :
    look [n] (.dict a.target) = some (match n, Value .tensorforce args n with
      | "memory", .none => .dict [("type", .str "recent")]
      | "update", .int m => .dict [("unit", .str "timesteps"), ("batch_size", .int m)]
      | _, v => v) := by
  obtain ⟨_, _, hd, t, hh, _, hb, _, rfl⟩ := (make_learning w .tensorforce nofun nofun args a).1 h
  have hm := documented .tensorforce n hn
  have hfind : ∀ n ∈ names .tensorforce, find n hd = some (Value .tensorforce args n) := by
    intro n hn
    cases hh
    rw [find_pick, if_pos hn, env_value _ _ _ hn]
  obtain ⟨_, _, c, c', _, _, _, rfl⟩ := (baseInit_ok hd _ t).1 hb
  have h1 : Verif.Family.get "memory" hd = Value .tensorforce args "memory" := by
    unfold Verif.Family.get; rw [hfind _ (by decide +kernel)]; rfl
  have h2 : Verif.Family.get "update" hd = Value .tensorforce args "update" := by
    unfold Verif.Family.get; rw [hfind _ (by decide +kernel)]; rfl
  unfold look
  rw [← find_eq_lookup, h1, h2]
  dsimp only
  rw [find_put, find_put, find_put, if_neg hc, hfind n hm]
  by_cases e1 : n = "memory"
  · subst e1
    rw [if_pos rfl]
    dsimp only [look]
    cases Value .tensorforce args "memory" <;> rfl
  · rw [if_neg e1]
    by_cases e2 : n = "update"
    · subst e2
      rw [if_pos rfl]
      dsimp only [look]
      cases Value .tensorforce args "update" <;> rfl
    · rw [if_neg e2]
      dsimp only [look]
      split
      · rename_i e _; exact (e1 rfl).elim
      · rename_i e _; exact (e2 rfl).elim
      · rfl

private def baseExample : Args :=
  [("states", .other 1), ("actions", .other 2), ("update", .int 64), ("optimizer", .str "adam"), ("objective", .str "policy_gradient"),
    ("reward_estimation", .dict [("horizon", .int 20)])]

example : fine (make world .tensorforce baseExample) = true := by decide +kernel

/-- C101: if no maximum number of timesteps is saved, the one of the environment is used for the loaded agent. -/
theorem limit_used (w : World) (file : Args) (n : Int) (b : Agent) (hm : (file.lookup "max_episode_timesteps").getD .none = .none)
    (h : load w file (some n) = .ok b) : look ["max_episode_timesteps"] (.dict b.target) = some (.int n) := by
  have hl : limited file (some n) = put "max_episode_timesteps" (.int n) file := by
    unfold limited Verif.Family.get
    rw [find_eq_lookup, hm]
  unfold load at h
  rw [hl] at h
  unfold create at h
  dsimp only at h
  split at h
  · split at h
    · rename_i k _
      have hv : Value k (remove "type" (remove "agent" (loadSaver (remove "initial_internals" (remove "internals"
          (put "max_episode_timesteps" (.int n) file)))))) "max_episode_timesteps" = .int n := by
        unfold Value arg
        rw [← find_eq_lookup, find_remove, if_neg (by decide), find_remove, if_neg (by decide), find_loadSaver, if_neg (by decide),
          find_remove, if_neg (by decide), find_remove, if_neg (by decide), find_put, if_pos rfl]
        rfl
      rw [← hv]
      by_cases hk : k = .constant ∨ k = .random
      · exact simple_placed w k hk _ b h _ (by rcases hk with rfl | rfl <;> decide +kernel)
      · by_cases ht : k = .tensorforce
        · subst ht
          exact base_placed w _ b h "max_episode_timesteps" (by decide +kernel) (by decide)
        · exact (placed_partial w k ⟨ht, fun e => hk (.inl e), fun e => hk (.inr e)⟩ _ b h).2 _ (by decide) (by decide)
    · cases h
  · cases h

example : fine (load world (("agent", .str "tensorforce") :: baseExample) (some 100)) = true := by decide +kernel

/-- C102: all entries of the configuration are passed on, except `buffer_observe` (C105). -/
theorem config_placed (w : World) (k : Kind) (hc : k ≠ .constant) (hr : k ≠ .random) (args : Args) (a : Agent) (h : make w k args = .ok a)
    (n : String) (hn : n ≠ "buffer_observe") : look ["config", n] (.dict a.target) = look [n] (Value k args "config") := by
  obtain ⟨_, _, hd, t, hh, _, hb, _, rfl⟩ := (make_learning w k hc hr args a).1 h
  obtain ⟨_, _, c, c', h1, h2, _, rfl⟩ := (baseInit_ok hd _ t).1 hb
  have hk : "config" ∈ names k := by cases k <;> decide +kernel
  rw [handed_config k _ hd hh, env_value k args _ hk] at h1
  have hcc := bufferConfig_find _ _ _ c c' h2 n hn
  show look ["config", n] (.dict (put "memory" _ (put "update" _ (put "config" (.dict c') hd)))) = _
  rw [look]
  rw [← find_eq_lookup, find_put, if_neg (by decide), find_put, if_neg (by decide), find_put, if_pos rfl]
  dsimp only
  rw [look, ← find_eq_lookup, hcc]
  cases hv : Value k args "config" with
  | none => rw [hv] at h1; cases h1; rfl
  | dict items => rw [hv] at h1; cases h1; rw [look, ← find_eq_lookup]
  | bool b | int b | float b | str b | other b => rw [hv] at h1; cases h1

example : fine (make world .dqn (("config", .dict [("seed", .int 3)]) :: dqnExample)) = true := by decide +kernel

/-- Violation: without critic the network of the critic of a DPG agent is "auto"; its documentation says "default: none". -/
theorem critic_violation (w : World) (args : Args) (a : Agent) (h : make w .dpg args = .ok a) (hn : args.lookup "critic" = none) :
    look ["baseline", "network"] (.dict a.target) = some (.str "auto") := by
  have hf : Fixed .dpg := ⟨nofun, nofun, nofun⟩
  have := placed w .dpg hf args a h (["baseline", "network"], some (Value .dpg args "critic")) (by simp [places])
  rw [this]
  unfold Value arg
  rw [hn]
  rfl

example : fine (make world .dpg (dqnExample.take 4)) = true := by decide +kernel

/-- Violation: the maximum number of timesteps is documented as "default: not given", but VPG, TRPO and PPO agents require it. -/
theorem timesteps_violation (w : World) (k : Kind) (hk : HasBaseline k) (args : Args) (hn : args.lookup "max_episode_timesteps" = none) (a : Agent) :
    make w k args ≠ .ok a := by
  intro h
  have hm : missing k args = none := by
    by_cases hs : k = .constant ∨ k = .random
    · exact ((make_simple w k hs args a).1 h).1
    · rw [not_or] at hs
      exact ((make_learning w k hs.1 hs.2 args a).1 h).1
  have := missing_none k args hm "max_episode_timesteps" (by rcases hk with rfl | rfl | rfl <;> simp [params, vpgParams, trpoParams, ppoParams, req])
  rw [hn] at this
  cases this

example : ([] : Args).lookup "max_episode_timesteps" = none := rfl

/-! ## C103 -/

/-- C103: an argument which is not documented is rejected, and so is a missing argument which is required. -/
theorem known (w : World) (k : Kind) (args : Args) (a : Agent) (h : make w k args = .ok a) :
    (∀ p ∈ args, ((defaults k).lookup p.1).isSome = true) ∧ ∀ n ∈ required k, (args.lookup n).isSome = true := by
  have hm : missing k args = none ∧ extra k args = [] := by
    by_cases hs : k = .constant ∨ k = .random
    · obtain ⟨h1, h2, _⟩ := (make_simple w k hs args a).1 h
      exact ⟨h1, h2⟩
    · rw [not_or] at hs
      obtain ⟨h1, _, hd, t, _, _, hb, _⟩ := (make_learning w k hs.1 hs.2 args a).1 h
      obtain ⟨_, h2, _⟩ := (baseInit_ok hd _ t).1 hb
      exact ⟨h1, h2⟩
  refine ⟨fun p hp => ?_, fun n hn => missing_none k args hm.1 n (required_params k n hn)⟩
  have hx := hm.2
  unfold extra at hx
  rw [List.filter_eq_nil_iff] at hx
  have := hx p hp
  exact known_documented k p.1 (by simpa using this)

/-- C103: two agents of a class with fixed algorithm get the same arguments for the model only if all arguments are the same; the configuration is
left out, since `buffer_observe` has a default.
Missing: the advantage processing of A2C agents is ignored, the one of VPG, TRPO and PPO agents without baseline too
(`advantage_violation`). -/
theorem used_partial (w : World) (k : Kind) (hf : Fixed k) (args args' : Args) (a a' : Agent) (h : make w k args = .ok a)
    (h' : make w k args' = .ok a') (he : ∀ n, a.target.lookup n = a'.target.lookup n) (n : String)
    (hn : ((defaults k).lookup n).isSome = true) (hc : n ≠ "config")
    (h1 : k = .a2c → n ≠ "advantage_processing")
    (h2 : HasBaseline k → Value k args "baseline" = .none → n ≠ "advantage_processing" ∧ n ≠ "predict_terminal_values") :
    Value k args n = Value k args' n := by
  have hm := documented k n hn
  obtain ⟨_, _, hd, t, hh, _, hb, _, rfl⟩ := (make_learning w k hf.2.1 hf.2.2 args a).1 h
  obtain ⟨_, _, hd', t', hh', _, hb', _, rfl⟩ := (make_learning w k hf.2.1 hf.2.2 args' a').1 h'
  have hfind : ∀ n, n ≠ "config" → find n hd = find n hd' := by
    intro n hn
    rw [← target_fixed k hf _ hd _ t hh hb n hn, ← target_fixed k hf _ hd' _ t' hh' hb' n hn, find_eq_lookup, find_eq_lookup]
    exact he n
  have hb : env k args "baseline" = Value k args "baseline" ∨ ¬ HasBaseline k := by
    by_cases hk : HasBaseline k
    · exact .inl (env_value k args _ (by rcases hk with rfl | rfl | rfl <;> decide +kernel))
    · exact .inr hk
  rw [← env_value k args n hm, ← env_value k args' n hm]
  refine handed_injective k hf (env k args) (env k args') hd hd' hh hh' hfind n hm hc h1 (fun hk hv => h2 hk ?_)
  rcases hb with hb | hb
  · rw [← hb]; exact hv
  · exact (hb hk).elim

example : fine (make world .a2c (dqnExample.eraseIdx 2)) = true ∧ ((defaults .a2c).lookup "critic").isSome = true := by decide +kernel

/-- Violation: the advantage processing of an A2C agent has no effect, nor does the one of a VPG, TRPO or PPO agent without baseline. -/
theorem advantage_violation (w : World) (k : Kind) (args : Args) (hk : k = .a2c ∨ (HasBaseline k ∧ Value k args "baseline" = .none)) (v v' : Val)
    (a : Agent) (h : make w k (("advantage_processing", v) :: args) = .ok a) :
    ∃ a', make w k (("advantage_processing", v') :: args) = .ok a' ∧ a'.target = a.target := by
  have hk' : k ≠ .constant ∧ k ≠ .random ∧ "advantage_processing" ∈ names k := by
    rcases hk with rfl | ⟨rfl | rfl | rfl, _⟩ <;> decide +kernel
  have he : ∀ n, n ≠ "advantage_processing" →
      env k (("advantage_processing", v) :: args) n = env k (("advantage_processing", v') :: args) n := by
    intro n hn
    rw [env_cons k args _ v n hn, env_cons k args _ v' n hn]
  have hb : k = .a2c ∨ (HasBaseline k ∧ env k (("advantage_processing", v) :: args) "baseline" = .none) := by
    refine hk.imp id fun ⟨h1, h2⟩ => ⟨h1, ?_⟩
    rw [env_cons k args _ v _ (by decide), env_value k args _ (by rcases h1 with rfl | rfl | rfl <;> decide +kernel), h2]
  obtain ⟨h1, h2, hd, t, h3, h4, h5, h6, rfl⟩ := (make_learning w k hk'.1 hk'.2.1 _ a).1 h
  rw [handed_advantage k _ _ hb he] at h3
  rw [missing_cons k args _ v v'] at h1
  rw [extra_cons k args _ v v' hk'.2.2] at h2 h4 h5
  rw [he _ (by decide)] at h6
  exact ⟨_, (make_learning w k hk'.1 hk'.2.1 _ _).2 ⟨h1, h2, hd, t, h3, h4, h5, h6, rfl⟩, rfl⟩

example : fine (make world .a2c (("advantage_processing", .str "batch_normalization") :: dqnExample.eraseIdx 2)) = true ∧
    fine (make world .vpg (("advantage_processing", .str "batch_normalization") :: trpoExample.take 4)) = true := by decide +kernel

end Verif.Props.Family
