import Verif.Launch.CommandLemmas

/-!
# C137: the command line program

The program runs what the command line asks for, and stores the results of each episode.
-/

namespace Verif.Props.Command

open Verif.Launch

/-- A command line with agent and environment runs them, the given number of times, with all arguments as given. Missing for the property: command
lines without agent, see `agent_violation`. -/
theorem runs_partial (int : Text → Option Int) (l : Line) (a e : Text) (s z : Option Conf) (h : Each Text) (p : Each Int)
    (ha : l.agent = some a) (he : l.environment = some e) (hs : Given l.checkpoints s) (hz : Given l.summaries z) (hh : Hosts l.host h) (hp : Ports int l.port p)
    (hr : l.remote ≠ some .socketServer) (hpath : l.path = none) :
    command int l = .ok (.runs l.repetitions ⟨⟨a, s, z, l.recordings⟩, some ⟨e, l.level, l.visualize, l.visualizeDirectory⟩, l.limit, l.evaluation, l.numParallel,
      l.remote, l.blocking, h, p⟩) := by
  unfold command checkPath envSpec agentSpec
  rw [hpath, he, ha, port_given hp, conf_given hs, conf_given hz, host_given hh]
  simp only
  rw [if_neg hr]

example : Given (some "dir,agent".toList) (some (.named "dir".toList "agent".toList)) := .named "dir".toList "agent".toList (by decide) (by decide)

/-- As clients of environments served elsewhere no environment is needed. Missing for the property: as above. -/
theorem client_partial (int : Text → Option Int) (l : Line) (a : Text) (s z : Option Conf) (h : Each Text) (p : Each Int)
    (ha : l.agent = some a) (he : l.environment = none) (hl : l.level = none) (hv : l.visualize = false) (hd : l.visualizeDirectory = none)
    (hs : Given l.checkpoints s) (hz : Given l.summaries z) (hh : Hosts l.host h) (hp : Ports int l.port p) (hr : l.remote = some .socketClient) (hpath : l.path = none) :
    command int l = .ok (.runs l.repetitions ⟨⟨a, s, z, l.recordings⟩, none, l.limit, l.evaluation, l.numParallel, some .socketClient, l.blocking, h, p⟩) := by
  unfold command checkPath envSpec agentSpec
  rw [hpath, he, ha, port_given hp, conf_given hs, conf_given hz, host_given hh, hl, hv, hd, hr]
  rfl

example : Ports (fun t => if t = ['1'] then some 1 else none) (some "1,1".toList) (.many [1, 1]) :=
  .many ["1".toList, "1".toList] [1, 1] (by decide) (by decide) (by decide)

/-- A server needs no agent, and serves the environment at its port. -/
theorem server (int : Text → Option Int) (l : Line) (e : Text) (p : Each Int) (he : l.environment = some e) (hp : Ports int l.port p)
    (hr : l.remote = some .socketServer) (hpath : l.path = none) :
    command int l = .ok (.server (some ⟨e, l.level, l.visualize, l.visualizeDirectory⟩) l.limit p) := by
  unfold command checkPath envSpec
  rw [hpath, he, port_given hp]
  simp only
  rw [if_pos hr]

example : Ports (fun _ => some 8000) (some "8000".toList) (.one 8000) := .one _ _ (by decide) rfl

/-- A logging path needs a number of episodes and no extension, and changes nothing else. -/
theorem path (int : Text → Option Int) (l : Line) (t : Text) (h : l.path = some t) :
    command int l = if '.' ∉ (t.reverse.takeWhile (· ≠ '/')).reverse.dropWhile (· = '.') ∧ l.episodes ≠ none then command int { l with path := none } else .error .assertion := by
  unfold command
  rw [checkPath_some l t h]
  by_cases hc : '.' ∉ (t.reverse.takeWhile (· ≠ '/')).reverse.dropWhile (· = '.') ∧ l.episodes ≠ none
  · rw [if_pos hc, if_pos hc]
    rfl
  · rw [if_neg hc, if_neg hc]

example : '.' ∉ ("logs/run".toList.reverse.takeWhile (· ≠ '/')).reverse.dropWhile (· = '.') := by decide

/-- With `--path` entry `j` of the stored table are the results of episode `j` of all repetitions, in order. -/
theorem stored {R : Type} (n : Nat) (rs : List (List R)) (h : ∀ r ∈ rs, r.length = n) :
    ∃ t, recordAll rs (List.replicate n []) = .ok t ∧ t.length = n ∧
      ∀ j < n, t[j]? = some (rs.filterMap (fun r => r[j]?)) ∧ (rs.filterMap (fun r => r[j]?)).length = rs.length := by
  obtain ⟨t, h1, h2, h3⟩ := recordAll_eq rs (List.replicate n []) (fun r hr => by rw [h r hr, List.length_replicate]; exact Nat.le_refl _)
  refine ⟨t, h1, by rw [h2, List.length_replicate], fun j hj => ⟨?_, ?_⟩⟩
  · rw [h3 j, List.getElem?_replicate, if_pos hj]
    simp
  · clear h1 h3
    induction rs with
    | nil => rfl
    | cons r rs ih =>
      have hr := h r (List.mem_cons_self ..)
      rw [List.filterMap_cons, List.getElem?_eq_getElem (by omega : j < r.length)]
      simp only [List.length_cons]
      rw [ih (fun x hx => h x (List.mem_cons_of_mem _ hx))]

example : (recordAll [[1, 2], [3, 4]] (List.replicate 2 [])).toOption = some [[1, 3], [2, 4]] := by decide +kernel

/-- Results of more episodes than there are entries are never dropped silently. -/
theorem excess {R : Type} (n : Nat) (rs : List (List R)) (h : ∃ r ∈ rs, n < r.length) : recordAll rs (List.replicate n []) = .error .index :=
  recordAll_beyond rs _ (by rw [List.length_replicate]; exact h)

example : ∃ r ∈ [[1, 2], [3, 4, 5]], 2 < r.length := ⟨_, .tail _ (.head _), by decide⟩

/-- Without agent the program always fails, since `args.saver` does not exist, unless it is a server. -/
theorem agent_violation (int : Text → Option Int) (l : Line) (h : l.agent = none) (hr : l.remote ≠ some .socketServer) (x : Action) : command int l ≠ .ok x := by
  intro hc
  unfold command agentSpec at hc
  rw [h] at hc
  cases h1 : checkPath l with
  | error e => rw [h1] at hc; cases hc
  | ok u =>
    rw [h1] at hc
    simp only at hc
    cases h2 : envSpec l with
    | error e => rw [h2] at hc; cases hc
    | ok env =>
      rw [h2] at hc
      simp only at hc
      cases h3 : portArg int l.port with
      | error e => rw [h3] at hc; cases hc
      | ok p =>
        rw [h3] at hc
        simp only at hc
        rw [if_neg hr] at hc
        cases hc

/-- A minimal command line. -/
def minimal : Line := ⟨none, none, none, none, some "gym".toList, none, none, false, none, none, none, false, none, none, false, some 10, 1, none⟩

example : command (fun _ => none) minimal = .error .attribute := by decide +kernel

/-- A level without environment, for which the gym adapter would be the default, is a TypeError. -/
theorem level_violation : command (fun _ => none) { minimal with agent := some "ppo".toList, environment := none, level := some "CartPole-v1".toList } = .error .type_ := by
  decide +kernel

/-- Ports which are no integers are refused, also one among several. -/
theorem port_rejected (int : Text → Option Int) (l : Line) (ts : List Text) (hp : l.port = some (join ts)) (hc : ∀ t ∈ ts, ',' ∉ t) (t : Text)
    (ht : t ∈ ts) (hi : int t = none) (x : Action) : command int l ≠ .ok x := by
  intro h
  unfold command at h
  rw [hp, port_error int ts hc t ht hi] at h
  cases h1 : checkPath l with
  | error e => rw [h1] at h; cases h
  | ok u =>
    rw [h1] at h
    simp only at h
    cases h2 : envSpec l with
    | error e => rw [h2] at h; cases h
    | ok env => rw [h2] at h; cases h

example : join ["80".toList, "x".toList] = "80,x".toList := by decide

/-- Checkpoints and summaries with two commas or more are refused. -/
theorem pieces_rejected (int : Text → Option Int) (l : Line) (ts : List Text) (hp : l.checkpoints = some (join ts) ∨ l.summaries = some (join ts))
    (hn : 3 ≤ ts.length) (hc : ∀ t ∈ ts, ',' ∉ t) (hr : l.remote ≠ some .socketServer) (x : Action) : command int l ≠ .ok x := by
  intro h
  have hs : ∀ y, agentSpec l ≠ .ok y := by
    intro y hy
    unfold agentSpec at hy
    cases h1 : l.agent with
    | none => rw [h1] at hy; cases hy
    | some a =>
      rw [h1] at hy
      simp only at hy
      rcases hp with hp | hp
      · rw [hp, conf_error ts hn hc] at hy; cases hy
      · rw [hp, conf_error ts hn hc] at hy
        cases h2 : conf l.checkpoints with
        | error e => rw [h2] at hy; cases hy
        | ok s => rw [h2] at hy; cases hy
  unfold command at h
  cases h1 : checkPath l with
  | error e => rw [h1] at h; cases h
  | ok u =>
    rw [h1] at h
    simp only at h
    cases h2 : envSpec l with
    | error e => rw [h2] at h; cases h
    | ok env =>
      rw [h2] at h
      simp only at h
      cases h3 : portArg int l.port with
      | error e => rw [h3] at h; cases h
      | ok p =>
        rw [h3] at h
        simp only at h
        rw [if_neg hr] at h
        cases h4 : agentSpec l with
        | error e => rw [h4] at h; cases h
        | ok y => exact hs y h4

example : join ["a".toList, "b".toList, "agent".toList] = "a,b,agent".toList := by decide

/-- Directories which contain a comma cannot be given together with a file name. -/
theorem comma_violation : command (fun _ => none) { minimal with agent := some "ppo".toList, checkpoints := some "a,b,agent".toList } = .error .value := by decide +kernel

/-- If the runs end before the number of episodes (because of another limit), the rows have different lengths. -/
theorem ragged_violation : (recordAll [[1, 2], [3]] (List.replicate 3 [])).toOption = some [[1, 3], [2], []] := by decide +kernel

end Verif.Props.Command
