import Verif.Family.AcceptLemmas

/-!
# Properties C104 (accepted arguments) and C105 (buffered observations)
-/

namespace Verif.Props.FamilyAccept

open Verif.Family

private def world : World := ⟨fun _ => true, fun _ => true⟩

private def fine {α : Type} (x : Except Err α) : Bool := match x with | .ok _ => true | .error _ => false

/-! ## C104 -/

/-- Documented arguments, and all which are required. -/
def Documented (k : Kind) (args : Args) : Prop :=
  (∀ p ∈ args, ((defaults k).lookup p.1).isSome = true) ∧ ∀ n ∈ required k, (args.lookup n).isSome = true

/-- A summarizer is a path or a dictionary without the deprecated key. -/
def SummarizerFits : Val → Prop
  | .none => True
  | .str s => isInfix "labels".toList s.toList = false
  | .dict items => items.lookup "labels" = none
  | _ => False

/-- A configuration without `buffer_observe`, or no configuration. -/
def ConfigFits : Val → Prop
  | .none => True
  | .dict items => items.lookup "buffer_observe" = none
  | _ => False

private theorem accepted_core (w : World) (k : Kind) (hf : Fixed k) (args : Args) (hd : Documented k args)
    (hb : HasBaseline k → (Value k args "baseline" = .none ↔ Value k args "baseline_optimizer" = .none) ∧
      (Value k args "baseline" = .none → (Value k args "predict_terminal_values").truthy = false))
    (ha : k = .duelingDqn → w.allInt (Value k args "actions") = true)
    (hs : SummarizerFits (Value k args "summarizer")) (c c' : Args) (hc1 : configDict (Value k args "config") = .ok c)
    (hbuf : ∀ u, find "unit" u = some (.str (if k = .vpg ∨ k = .trpo ∨ k = .ppo then "episodes" else "timesteps")) →
      (∃ v, find "batch_size" u = some v) → find "frequency" u = some (Value k args "update_frequency") →
      bufferConfig (Value k args "parallel_interactions") (.dict u) (Value k args "max_episode_timesteps") c = .ok c')
    (hval : bufferValid (find "buffer_observe" c') = true) :
    ∃ a, make w k args = .ok a := by
  have hv : ∀ n ∈ names k, env k args n = Value k args n := fun n hn => env_value k args n hn
  have hsn : ∀ n ∈ sameName, env k args n = Value k args n := fun n hn => hv n (same_known k hf n hn)
  have hbb : HasBaseline k → "baseline" ∈ names k ∧ "baseline_optimizer" ∈ names k ∧ "predict_terminal_values" ∈ names k := by
    intro h; rcases h with rfl | rfl | rfl <;> decide +kernel
  have huf : "update_frequency" ∈ names k := by
    obtain ⟨h1, h2, h3⟩ := hf
    cases k with
    | tensorforce => exact (h1 rfl).elim
    | constant => exact (h2 rfl).elim
    | random => exact (h3 rfl).elim
    | dqn | doubleDqn | duelingDqn | dpg | ac | a2c | vpg | trpo | ppo => decide +kernel
  obtain ⟨h, hh⟩ := handed_ok k (env k args) (by
    intro hk
    obtain ⟨q1, q2, q3⟩ := hbb hk
    rw [hv _ q1, hv _ q2, hv _ q3]
    exact hb hk)
  have hget : ∀ n ∈ sameName, Verif.Family.get n h = Value k args n := by
    intro n hn
    unfold Verif.Family.get
    rw [same_handed k hf _ h hh n hn, hsn n hn]; rfl
  obtain ⟨hk1, hk2⟩ := handed_keys k hf _ h hh
  have hkeys : checkKeys h = .ok () := by
    refine checkKeys_ok h hk1 hk2 ?_
    rw [hget "summarizer" (by decide)]
    cases hx : Value k args "summarizer" with
    | none => exact .inl rfl
    | str s => rw [hx] at hs; exact .inr (congrArg Except.ok hs)
    | dict items =>
      rw [hx] at hs
      refine .inr (congrArg Except.ok ?_)
      rw [find_eq_lookup, show items.lookup "labels" = none from hs]; rfl
    | bool b | int b | float b | other b => rw [hx] at hs; exact hs.elim
  obtain ⟨u, hu1, hu2, hu3, hu4⟩ := handed_update k hf _ h hh
  have hext := extra_of k args hd.1
  refine ⟨_, (make_learning w k hf.2.1 hf.2.2 args _).2 ⟨missing_of k args hd.2, ?_, h, _, hh, ?_, (baseInit_ok h _ _).2
    ⟨hkeys, hext, c, c', (by rw [hget "config" (by decide)]; exact hc1), ?_, hval, rfl⟩, ?_, rfl⟩⟩
  · rw [hext, List.find?_eq_none]; intro n _ hn; cases hn
  · rw [hext]; rfl
  · rw [hget "parallel_interactions" (by decide), hget "max_episode_timesteps" (by decide), hu1]
    exact hbuf u hu4 ⟨_, hu2⟩ (by rw [hu3, hv _ huf])
  · by_cases hk : k = .duelingDqn
    · rw [hsn "actions" (by decide), ha hk]; simp
    · simp [hk]

/-- C104: a class with fixed algorithm accepts all documented arguments if the required ones are given.
Missing: a baseline without optimizer (`baseline_violation`), terminal values without baseline (`terminal_violation`), paths containing "labels"
(`labels_violation`). `buffer_observe` is the subject of C105
(`given_accepted`). -/
theorem accepted_partial (w : World) (k : Kind) (hf : Fixed k) (args : Args) (hd : Documented k args)
    (hb : HasBaseline k → (Value k args "baseline" = .none ↔ Value k args "baseline_optimizer" = .none) ∧
      (Value k args "baseline" = .none → (Value k args "predict_terminal_values").truthy = false))
    (ha : k = .duelingDqn → w.allInt (Value k args "actions") = true)
    (hs : SummarizerFits (Value k args "summarizer")) (hc : ConfigFits (Value k args "config"))
    (n : Int) (hn : 1 ≤ n) (hp : Value k args "parallel_interactions" = .int n)
    (hm : 1 < n → Value k args "max_episode_timesteps" ≠ .none) (hu : ∀ m, Value k args "update_frequency" = .int m → 1 ≤ m) :
    ∃ a, make w k args = .ok a := by
  obtain ⟨c, hc1, hc2⟩ : ∃ c, configDict (Value k args "config") = .ok c ∧ find "buffer_observe" c = none := by
    cases hx : Value k args "config" with
    | none => exact ⟨[], rfl, rfl⟩
    | dict items => rw [hx] at hc; exact ⟨items, rfl, by rw [find_eq_lookup]; exact hc⟩
    | bool b | int b | float b | str b | other b => rw [hx] at hc; exact hc.elim
  obtain ⟨v, hv1, hv2⟩ : ∃ v, bufferValid (some v) = true ∧
      ∀ u, find "unit" u = some (.str (if k = .vpg ∨ k = .trpo ∨ k = .ppo then "episodes" else "timesteps")) →
      (∃ v, find "batch_size" u = some v) → find "frequency" u = some (Value k args "update_frequency") →
      bufferConfig (Value k args "parallel_interactions") (.dict u) (Value k args "max_episode_timesteps") c =
        .ok (put "buffer_observe" v c) := by
    rw [hp]
    unfold bufferConfig
    by_cases h1 : 1 < n
    · have hg : greater 1 (.int n) = .ok true := by simp [greater, h1]
      have hmm : (Value k args "max_episode_timesteps").isNone = false := by
        rw [← Bool.not_eq_true, isNone_iff]; exact hm h1
      simp only [hg, bind, Except.bind, if_true, hc2, hmm, Option.isNone_none, Bool.false_eq_true, if_false]
      exact ⟨.str "episode", rfl, fun _ _ _ _ => rfl⟩
    · have hg : greater 1 (.int n) = .ok false := by simp [greater, h1]
      simp only [hg, bind, Except.bind, Bool.false_eq_true, if_false, hc2]
      by_cases hk : k = .vpg ∨ k = .trpo ∨ k = .ppo
      · refine ⟨.str "episode", rfl, fun u hu4 _ _ => ?_⟩
        simp only [index, hu4, if_pos hk, show (Val.str "episodes").isStr "timesteps" = false from rfl,
          show (Val.str "episodes").isStr "episodes" = true from rfl, if_true, Bool.false_eq_true, if_false, Option.isNone_none]
      · cases hx : Value k args "update_frequency" with
        | int m =>
          refine ⟨.int m, by simpa [bufferValid] using hu m hx, fun u hu4 ⟨y, hu2⟩ hu3 => ?_⟩
          simp only [index, hu2, hu3, hu4, if_neg hk, show (Val.str "timesteps").isStr "timesteps" = true from rfl, if_true, Option.getD_some]
        | none | bool b | float b | str b | dict b | other b =>
          refine ⟨.int 1, rfl, fun u hu4 ⟨y, hu2⟩ hu3 => ?_⟩
          simp only [index, hu2, hu3, hu4, if_neg hk, show (Val.str "timesteps").isStr "timesteps" = true from rfl, if_true, Option.getD_some]
  exact accepted_core w k hf args hd hb ha hs c _ hc1 hv2 (by rw [find_put, if_pos rfl]; exact hv1)

private def ppoExample : Args :=
  [("states", .other 1), ("actions", .other 2), ("max_episode_timesteps", .int 100), ("batch_size", .int 10), ("baseline", .str "auto"),
    ("baseline_optimizer", .float 1)]

example : Documented .ppo ppoExample ∧ fine (make world .ppo ppoExample) = true := ⟨by unfold Documented; decide +kernel, by decide +kernel⟩

/-- Violation: "main optimizer will be used for baseline if none", but a baseline without optimizer is rejected. -/
theorem baseline_violation (w : World) (k : Kind) (hk : HasBaseline k) (args : Args) (hb : Value k args "baseline" ≠ .none)
    (ho : args.lookup "baseline_optimizer" = none) (a : Agent) : make w k args ≠ .ok a := by
  intro h
  have hf : k ≠ .constant ∧ k ≠ .random ∧ "baseline" ∈ names k ∧ "baseline_optimizer" ∈ names k := by
    rcases hk with rfl | rfl | rfl <;> decide +kernel
  obtain ⟨_, _, hd, _, hh, _⟩ := (make_learning w k hf.1 hf.2.1 args a).1 h
  have := (handed_optimizer k hk _ hd hh).1
  rw [env_value k args _ hf.2.2.1, env_value k args _ hf.2.2.2] at this
  refine hb (this.2 ?_)
  unfold Value arg
  rw [ho]
  rcases hk with rfl | rfl | rfl <;> rfl

example : Documented .ppo (ppoExample.take 5) ∧ Value .ppo (ppoExample.take 5) "baseline" ≠ .none :=
  ⟨by unfold Documented; decide +kernel, nofun⟩

/-- Violation: predicted terminal values are rejected without baseline. -/
theorem terminal_violation (w : World) (k : Kind) (hk : HasBaseline k) (args : Args) (hb : Value k args "baseline" = .none)
    (ht : Value k args "predict_terminal_values" = .bool true) (a : Agent) : make w k args ≠ .ok a := by
  intro h
  have hf : k ≠ .constant ∧ k ≠ .random ∧ "baseline" ∈ names k ∧ "predict_terminal_values" ∈ names k := by
    rcases hk with rfl | rfl | rfl <;> decide +kernel
  obtain ⟨_, _, hd, _, hh, _⟩ := (make_learning w k hf.1 hf.2.1 args a).1 h
  have := (handed_optimizer k hk _ hd hh).2
  rw [env_value k args _ hf.2.2.1, env_value k args _ hf.2.2.2, ht] at this
  cases this hb

example : Documented .vpg (("predict_terminal_values", .bool true) :: ppoExample.take 4) := by unfold Documented; decide +kernel

/-- Violation: a path for summaries which contains "labels" is rejected as deprecated. -/
theorem labels_violation (w : World) (k : Kind) (hf : Fixed k) (args : Args) (s : String) (hs : Value k args "summarizer" = .str s)
    (hl : isInfix "labels".toList s.toList = true) (a : Agent) : make w k args ≠ .ok a := by
  intro h
  obtain ⟨_, _, hd, t, hh, _, hb, _⟩ := (make_learning w k hf.2.1 hf.2.2 args a).1 h
  obtain ⟨hc, _⟩ := (baseInit_ok hd _ t).1 hb
  have hget : Verif.Family.get "summarizer" hd = .str s := by
    unfold Verif.Family.get
    rw [same_handed k hf _ hd hh _ (by decide), env_value k args _ (same_known k hf _ (by decide)), hs]; rfl
  obtain ⟨hk1, hk2⟩ := handed_keys k hf _ hd hh
  unfold checkKeys at hc
  have h3 : (Val.str s).contains "labels" = .ok true := congrArg Except.ok hl
  simp only [hk1, hk2, bind, Except.bind, Bool.false_eq_true, if_false, hget, h3, show (Val.str s).isNone = false from rfl,
    Bool.not_false, if_true] at hc
  cases hc

example : isInfix "labels".toList "data/labels/run".toList = true := by decide +kernel

/-! ## C105 -/

/-- The number of timesteps between updates is a constant: the frequency, or the batch size without frequency. -/
def Interval (update : Val) (n : Int) : Prop :=
  look ["unit"] update = some (.str "timesteps") ∧
  (look ["frequency"] update = some (.int n) ∨ (look ["frequency"] update = none ∧ look ["batch_size"] update = some (.int n)))

private theorem look_one (n : String) (items : Args) : look [n] (.dict items) = find n items := by
  unfold look
  rw [← find_eq_lookup]
  cases find n items <;> rfl

private theorem buffer (w : World) (k : Kind) (hc : k ≠ .constant) (hr : k ≠ .random) (args : Args) (a : Agent) (h : make w k args = .ok a) :
    ∃ hd c c', handed k (env k args) = .ok hd ∧ configDict (Value k args "config") = .ok c ∧
      bufferConfig (Verif.Family.get "parallel_interactions" hd) (updateDefault (Verif.Family.get "update" hd))
        (Verif.Family.get "max_episode_timesteps" hd) c = .ok c' ∧ bufferValid (find "buffer_observe" c') = true ∧
      look ["config"] (.dict a.target) = some (.dict c') ∧ look ["update"] (.dict a.target) = some (updateDefault (Verif.Family.get "update" hd)) := by
  obtain ⟨_, _, hd, t, hh, _, hb, _, rfl⟩ := (make_learning w k hc hr args a).1 h
  obtain ⟨_, _, c, c', h1, h2, h3, rfl⟩ := (baseInit_ok hd _ t).1 hb
  have hk : "config" ∈ names k := by cases k <;> decide +kernel
  rw [handed_config k _ hd hh, env_value k args _ hk] at h1
  refine ⟨hd, c, c', hh, h1, h2, h3, ?_, ?_⟩
  · rw [look_one, find_put, if_neg (by decide), find_put, if_neg (by decide), find_put, if_pos rfl]
  · rw [look_one, find_put, if_neg (by decide), find_put, if_pos rfl]

private theorem parallel_value (k : Kind) (hc : k ≠ .constant) (hr : k ≠ .random) (args : Args) (hd : Args)
    (hh : handed k (env k args) = .ok hd) : Verif.Family.get "parallel_interactions" hd = Value k args "parallel_interactions" := by
  have hk : "parallel_interactions" ∈ names k := by
    revert hc hr; cases k <;> first | exact fun h _ => (h rfl).elim | exact fun _ h => (h rfl).elim | exact fun _ _ => by decide +kernel
  rw [← env_value k args _ hk]
  cases k with
  | constant => exact (hc rfl).elim
  | random => exact (hr rfl).elim
  | tensorforce | dqn | doubleDqn | duelingDqn | dpg | ac | a2c => cases hh; rfl
  | vpg | trpo | ppo =>
    simp only [handed, gradientArgs] at hh
    repeat' split at hh
    all_goals cases hh
    all_goals rfl

/-- C105: with one environment and updates after a constant number of timesteps, at most that many timesteps are buffered; this number is the default.
Missing: frequencies relative to the batch size or given as parameter (`relative_violation`), several environments (`parallel_violation`). -/
theorem buffer_partial (w : World) (k : Kind) (hc : k ≠ .constant) (hr : k ≠ .random) (args : Args) (a : Agent) (h : make w k args = .ok a)
    (hp : Value k args "parallel_interactions" = .int 1) (u : Val) (hu : look ["update"] (.dict a.target) = some u) (n : Int)
    (hi : Interval u n) :
    (look ["buffer_observe"] (Value k args "config") = none → look ["config", "buffer_observe"] (.dict a.target) = some (.int n)) ∧
    (∀ b, look ["buffer_observe"] (Value k args "config") = some b → look ["config", "buffer_observe"] (.dict a.target) = some b ∧
      ((∃ m, b = .int m ∧ 1 ≤ m ∧ m ≤ n) ∨ ∃ f, b = .bool f)) := by
  obtain ⟨hd, c, c', hh, h1, h2, h3, h4, h5⟩ := buffer w k hc hr args a h
  rw [h5] at hu
  cases hu
  rw [parallel_value k hc hr args hd hh, hp] at h2
  obtain ⟨items, hitems⟩ : ∃ items, updateDefault (Verif.Family.get "update" hd) = .dict items := by
    cases hx : updateDefault (Verif.Family.get "update" hd) with
    | dict items => exact ⟨items, rfl⟩
    | none | bool b | int b | float b | str b | other b => rw [hx] at hi; cases hi.1
  obtain ⟨unit, hun, hts, _⟩ := bufferConfig_one _ _ c c' _ rfl h2 items hitems
  rw [hitems] at hi
  obtain ⟨q1, q2⟩ := hi
  rw [look_one, hun] at q1
  cases q1
  obtain ⟨size, hsz, hdef, hgiv⟩ := hts rfl
  have hfr : (find "frequency" items).getD size = .int n := by
    rw [look_one, look_one] at q2
    rcases q2 with q2 | ⟨q2, q3⟩
    · rw [q2]; rfl
    · rw [q2]; rw [hsz] at q3; exact Option.some.inj q3
  have hcfg : ∀ x, look ["config", "buffer_observe"] (.dict a.target) = x ↔ find "buffer_observe" c' = x := by
    intro x
    have : look ["config", "buffer_observe"] (.dict a.target) = find "buffer_observe" c' := by
      rw [look]
      have h4 := h4
      rw [look] at h4
      cases hl : List.lookup "config" a.target with
      | none => rw [hl] at h4; cases h4
      | some y => rw [hl] at h4; cases h4; exact look_one _ _
    rw [this]
  have hlk : look ["buffer_observe"] (Value k args "config") = find "buffer_observe" c := by
    cases hx : Value k args "config" with
    | none => rw [hx] at h1; cases h1; rfl
    | dict items => rw [hx] at h1; cases h1; exact look_one _ _
    | bool b | int b | float b | str b | other b => rw [hx] at h1; cases h1
  rw [hlk]
  constructor
  · intro hb
    rw [hcfg, hdef hb, find_put, if_pos rfl, hfr]
  · intro b hb
    obtain ⟨rfl, hx⟩ := hgiv b hb
    refine ⟨(hcfg _).2 hb, ?_⟩
    obtain ⟨he, hg⟩ := hx n hfr
    rw [hb] at h3
    cases b with
    | bool f => exact .inr ⟨f, rfl⟩
    | int m =>
      refine .inl ⟨m, rfl, by simpa [bufferValid] using h3, ?_⟩
      have : ¬ m > n := by simpa [greater] using hg
      omega
    | str s =>
      have : s = "episode" := by simpa [bufferValid] using h3
      subst this
      cases he
    | none | float b | dict b | other b => cases h3

private def dqnExample : Args :=
  [("states", .other 1), ("actions", .other 2), ("memory", .int 1000), ("batch_size", .int 32), ("update_frequency", .int 4)]

example : fine (make world .dqn dqnExample) = true ∧ fine (make world .dqn (("config", .dict [("buffer_observe", .int 5)]) :: dqnExample)) = false ∧
    fine (make world .dqn (("config", .dict [("buffer_observe", .int 4)]) :: dqnExample)) = true := by decide +kernel

example : Interval (.dict [("unit", .str "timesteps"), ("batch_size", .int 32)]) 32 := ⟨rfl, .inr ⟨rfl, rfl⟩⟩

/-- C105: with updates counted in episodes, whole episodes are buffered by default, and also with several environments. -/
theorem episodes (w : World) (k : Kind) (hc : k ≠ .constant) (hr : k ≠ .random) (args : Args) (a : Agent) (h : make w k args = .ok a)
    (hb : look ["buffer_observe"] (Value k args "config") = none) (u : Val) (hu : look ["update"] (.dict a.target) = some u)
    (hx : (Value k args "parallel_interactions" = .int 1 ∧ look ["unit"] u = some (.str "episodes")) ∨
      ∃ n, 1 < n ∧ Value k args "parallel_interactions" = .int n) :
    look ["config", "buffer_observe"] (.dict a.target) = some (.str "episode") := by
  obtain ⟨hd, c, c', hh, h1, h2, h3, h4, h5⟩ := buffer w k hc hr args a h
  rw [h5] at hu
  cases hu
  rw [parallel_value k hc hr args hd hh] at h2
  have hcfg : look ["config", "buffer_observe"] (.dict a.target) = find "buffer_observe" c' := by
    rw [look]
    rw [look] at h4
    cases hl : List.lookup "config" a.target with
    | none => rw [hl] at h4; cases h4
    | some y => rw [hl] at h4; cases h4; exact look_one _ _
  have hlk : find "buffer_observe" c = none := by
    rw [← hb]
    cases hx : Value k args "config" with
    | none => rw [hx] at h1; cases h1; rfl
    | dict items => rw [hx] at h1; cases h1; exact (look_one _ _).symm
    | bool b | int b | float b | str b | other b => rw [hx] at h1; cases h1
  rw [hcfg]
  rcases hx with ⟨hp, hu⟩ | ⟨n, hn, hp⟩
  · rw [hp] at h2
    obtain ⟨items, hitems⟩ : ∃ items, updateDefault (Verif.Family.get "update" hd) = .dict items := by
      cases hx : updateDefault (Verif.Family.get "update" hd) with
      | dict items => exact ⟨items, rfl⟩
      | none | bool b | int b | float b | str b | other b => rw [hx] at hu; cases hu
    obtain ⟨unit, hun, _, hep⟩ := bufferConfig_one _ _ c c' _ rfl h2 items hitems
    rw [hitems, look_one, hun] at hu
    cases hu
    rw [(hep rfl).1 hlk, find_put, if_pos rfl]
  · rw [hp] at h2
    unfold bufferConfig at h2
    have hg : greater 1 (.int n) = .ok true := by simp [greater, hn]
    simp only [hg, bind, Except.bind, if_true, hlk, Option.isNone_none] at h2
    split at h2
    · cases h2
    · cases h2
      rw [find_put, if_pos rfl]

example : fine (make world .ppo ppoExample) = true := by decide +kernel

/-- What may be buffered: nothing or a constant number of timesteps, or whole episodes. -/
def BufferFits : Val → Prop
  | .bool _ => True
  | .str s => s = "episode"
  | .int m => 1 ≤ m
  | _ => False

/-- C105: a given buffer is accepted if updates are counted in episodes, or with several environments, or if it is not larger than the
number of timesteps between updates. -/
theorem given_accepted (w : World) (k : Kind) (hf : Fixed k) (args : Args) (hd : Documented k args)
    (hb : HasBaseline k → (Value k args "baseline" = .none ↔ Value k args "baseline_optimizer" = .none) ∧
      (Value k args "baseline" = .none → (Value k args "predict_terminal_values").truthy = false))
    (ha : k = .duelingDqn → w.allInt (Value k args "actions") = true)
    (hs : SummarizerFits (Value k args "summarizer")) (items : Args) (hc : Value k args "config" = .dict items)
    (b : Val) (hbo : items.lookup "buffer_observe" = some b) (hbf : BufferFits b)
    (n : Int) (hn : 1 ≤ n) (hp : Value k args "parallel_interactions" = .int n)
    (hx : 1 < n ∨ (k = .vpg ∨ k = .trpo ∨ k = .ppo) ∨
      ∀ f, Value k args "update_frequency" = .int f → (∃ t, b = .bool t ∧ 1 ≤ f) ∨ ∃ m, b = .int m ∧ m ≤ f) :
    ∃ a, make w k args = .ok a := by
  have hfb : find "buffer_observe" items = some b := by rw [find_eq_lookup]; exact hbo
  have hval : bufferValid (find "buffer_observe" items) = true := by
    rw [hfb]
    cases b with
    | bool t => rfl
    | str s => cases hbf; rfl
    | int m => exact decide_eq_true hbf
    | none | float b | dict b | other b => exact hbf.elim
  refine accepted_core w k hf args hd hb ha hs items items (by rw [hc]; rfl) (fun u hu4 ⟨y, hu2⟩ hu3 => ?_) hval
  rw [hp]
  unfold bufferConfig
  by_cases h1 : 1 < n
  · have hg : greater 1 (.int n) = .ok true := by simp [greater, h1]
    simp only [hg, bind, Except.bind, if_true, hfb, Option.isNone_some, Bool.false_eq_true, if_false]
  · have hg : greater 1 (.int n) = .ok false := by simp [greater, h1]
    simp only [hg, bind, Except.bind, Bool.false_eq_true, if_false, hfb, index, hu4]
    by_cases hk : k = .vpg ∨ k = .trpo ∨ k = .ppo
    · simp only [if_pos hk, show (Val.str "episodes").isStr "timesteps" = false from rfl,
        show (Val.str "episodes").isStr "episodes" = true from rfl, if_true, Bool.false_eq_true, if_false, Option.isNone_some]
    · simp only [if_neg hk, show (Val.str "timesteps").isStr "timesteps" = true from rfl, if_true, hu2, hu3, Option.getD_some]
      have hx := (hx.resolve_left h1).resolve_left hk
      cases hv : Value k args "update_frequency" with
      | int f =>
        rcases hx f hv with ⟨t, rfl, hf⟩ | ⟨m, rfl, hf⟩
        · cases t
          · simp [greater, Val.isStr, show ¬ f < 0 by omega]
          · simp [greater, Val.isStr, show ¬ f < 1 by omega]
        · simp [greater, Val.isStr, show ¬ f < m by omega]
      | none | bool b | float b | str b | dict b | other b => rfl

example : BufferFits (.str "episode") ∧ fine (make world .ppo (("config", .dict [("buffer_observe", .str "episode")]) :: ppoExample)) = true :=
  ⟨rfl, by decide +kernel⟩

/-- C105: with several environments, episodes of unlimited length cannot be buffered by default. -/
theorem unlimited_rejected (w : World) (k : Kind) (hf : Fixed k) (args : Args) (a : Agent) (n : Int) (hn : 1 < n)
    (hp : Value k args "parallel_interactions" = .int n) (hm : Value k args "max_episode_timesteps" = .none)
    (hb : look ["buffer_observe"] (Value k args "config") = none) : make w k args ≠ .ok a := by
  intro h
  obtain ⟨hd, c, c', hh, h1, h2, _⟩ := buffer w k hf.2.1 hf.2.2 args a h
  have hmx : Verif.Family.get "max_episode_timesteps" hd = .none := by
    unfold Verif.Family.get
    rw [same_handed k hf _ hd hh _ (by decide), env_value k args _ (same_known k hf _ (by decide)), hm]
    rfl
  have hlk : find "buffer_observe" c = none := by
    rw [← hb]
    cases hx : Value k args "config" with
    | none => rw [hx] at h1; cases h1; rfl
    | dict items => rw [hx] at h1; cases h1; exact (look_one _ _).symm
    | bool b | int b | float b | str b | other b => rw [hx] at h1; cases h1
  rw [parallel_value k hf.2.1 hf.2.2 args hd hh, hp, hmx] at h2
  unfold bufferConfig at h2
  have hg : greater 1 (.int n) = .ok true := by simp [greater, hn]
  simp only [hg, bind, Except.bind, if_true, hlk, Option.isNone_none] at h2
  cases h2

example : fine (make world .dqn (("parallel_interactions", .int 2) :: dqnExample)) = false ∧
    fine (make world .dqn (("parallel_interactions", .int 2) :: ("max_episode_timesteps", .int 9) :: dqnExample)) = true := by decide +kernel

/-- Violation: with a frequency relative to the batch size, a buffer of any size is accepted, so that updates are delayed. -/
theorem relative_violation (w : World) (q : Rat) (b m : Int) (hm : 1 ≤ m) :
    ∃ a, make w .dqn [("states", .other 1), ("actions", .other 2), ("memory", .int 1000), ("batch_size", .int b), ("update_frequency", .float q),
      ("config", .dict [("buffer_observe", .int m)])] = .ok a ∧
      look ["config", "buffer_observe"] (.dict a.target) = some (.int m) ∧ look ["update", "frequency"] (.dict a.target) = some (.float q) ∧
      look ["update", "batch_size"] (.dict a.target) = some (.int b) := by
  have hv : bufferValid (some (.int m)) = true := by simp [bufferValid, hm]
  refine ⟨_, (make_learning w .dqn nofun nofun _ _).2 ⟨rfl, rfl, _, _, rfl, rfl, (baseInit_ok _ _ _).2
    ⟨rfl, rfl, _, _, rfl, rfl, hv, rfl⟩, rfl, rfl⟩, rfl, rfl, rfl⟩

/-- Violation: with several environments, a buffer of any size is accepted, whatever the frequency of updates. -/
theorem parallel_violation (w : World) (p b f m : Int) (hp : 1 < p) (hm : 1 ≤ m) :
    ∃ a, make w .dqn [("states", .other 1), ("actions", .other 2), ("memory", .int 1000), ("batch_size", .int b), ("update_frequency", .int f),
      ("parallel_interactions", .int p), ("config", .dict [("buffer_observe", .int m)])] = .ok a ∧
      look ["config", "buffer_observe"] (.dict a.target) = some (.int m) ∧ look ["update", "frequency"] (.dict a.target) = some (.int f) := by
  have hv : bufferValid (some (.int m)) = true := by simp [bufferValid, hm]
  have hg : greater 1 (.int p) = .ok true := by simp [greater, hp]
  have hb : ∀ u x c, find "buffer_observe" c = some (.int m) → bufferConfig (.int p) u x c = .ok c := by
    intro u x c hc
    unfold bufferConfig
    simp only [hg, bind, Except.bind, if_true, hc, Option.isNone_some, Bool.false_eq_true, if_false]
  refine ⟨_, (make_learning w .dqn nofun nofun _ _).2 ⟨rfl, rfl, _, _, rfl, rfl, (baseInit_ok _ _ _).2
    ⟨rfl, rfl, _, _, rfl, hb _ _ _ rfl, hv, rfl⟩, rfl, rfl⟩, rfl, rfl⟩

/-- Violation: an update without unit, or counted in timesteps without batch size, is reported as a missing key of a dictionary instead of an error of
the library. -/
theorem key_violation (w : World) (v : Val) :
    make w .tensorforce [("states", .other 1), ("actions", .other 2), ("update", .dict [("batch_size", v)]), ("optimizer", .str "adam"),
      ("objective", .str "policy_gradient"), ("reward_estimation", .dict [("horizon", .int 20)])] = .error (.key "unit") ∧
    make w .tensorforce [("states", .other 1), ("actions", .other 2), ("update", .dict [("unit", .str "timesteps"), ("frequency", v)]),
      ("optimizer", .str "adam"), ("objective", .str "policy_gradient"), ("reward_estimation", .dict [("horizon", .int 20)])] =
        .error (.key "batch_size") := ⟨rfl, rfl⟩

end Verif.Props.FamilyAccept
