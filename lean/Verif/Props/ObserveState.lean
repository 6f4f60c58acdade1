import Verif.Obs.PromptLemmas

/-!
# The agent after observe (C127)
-/

namespace Verif.Props.ObserveState

open Verif.Obs

variable {R : Type} [DecidableEq R] [Zero R]

/-- After any history, a call is accepted if it means something, for different interactions which exist and wait for it, with valid terminals
and within the limit. -/
theorem accepted (c : Config) (ops : List (Op R)) (reward : Arg R) (terminal : Arg Code) (parallel : Arg Int) (l : List (Int × Int × R))
    (hm : Means c.interactions reward terminal parallel l) (hp : ∀ e ∈ l, 0 ≤ e.1 ∧ e.1 < c.interactions)
    (ht : ∀ e ∈ l, e.2.1 = 0 ∨ e.2.1 = 1 ∨ e.2.1 = 2) (hc : ∀ e ∈ l, (run c ops).completed[e.1.toNat]? = some false)
    (hl : ∀ m, c.limit = some m → ∀ e ∈ l, e.2.1 = 0 → ∀ x, (run c ops).counter[e.1.toNat]? = some x → x < m) :
    (observe c (run c ops) reward terminal parallel).2 = .ok () := by
  have hg := run_good c ops
  generalize run c ops = st at *
  unfold observe
  rw [forms_iff.2 hm]
  dsimp only
  rw [places_some hp]
  dsimp only
  have h1 : (l.map (fun e => (e.1.toNat, e))).any (fun e => st.completed.getD e.1 false) = false := by
    rw [List.any_eq_false]
    intro e he
    obtain ⟨x, hx, rfl⟩ := List.mem_map.1 he
    dsimp only
    rw [List.getD_eq_getElem?_getD, hc x hx]
    exact Bool.false_ne_true
  rw [h1, if_neg Bool.false_ne_true]
  have h2 : exceeds c.limit (increment st.counter ((l.map (fun e => (e.1.toNat, e))).map (·.1))) (l.map (fun e => (e.1.toNat, e))) = false := by
    unfold exceeds
    cases hlim : c.limit with
    | none => rfl
    | some m =>
      dsimp only
      rw [List.any_eq_false]
      intro e he
      obtain ⟨x, hx, rfl⟩ := List.mem_map.1 he
      dsimp only
      rw [Bool.and_eq_true, decide_eq_true_iff, beq_iff_eq]
      rintro ⟨h0, hlt⟩
      have hlen : x.1.toNat < st.counter.length := by
        rw [hg.sized.counter]
        have := hp x hx
        omega
      have := hl m hlim x hx h0 _ (List.getElem?_eq_getElem hlen)
      rw [List.getD_eq_getElem?_getD, increment_get, List.getElem?_eq_getElem hlen] at hlt
      simp only [Option.map_some, Option.getD_some] at hlt
      split at hlt <;> omega
  rw [h2, if_neg Bool.false_ne_true]
  refine loop_ok ?_ ?_
  · refine ⟨⟨?_, ?_, hg.sized.terminals, hg.sized.rewards⟩, hg.waiting, hg.lengths, hg.sent⟩
    · dsimp only; rw [List.length_mapIdx]; exact hg.sized.completed
    · dsimp only
      rw [restart_length]
      unfold increment
      rw [List.length_mapIdx]; exact hg.sized.counter
  · intro e he
    obtain ⟨x, hx, rfl⟩ := List.mem_map.1 he
    have := hp x hx
    exact ⟨by dsimp only; omega, this.1, this.2, ht x hx⟩

/-- Each reward and terminal of an accepted call arrives, in order, at its interaction: passed to the model, or waiting; and nothing else
arrives. -/
theorem received (c : Config) (ops : List (Op R)) (reward : Arg R) (terminal : Arg Code) (parallel : Arg Int) (l : List (Int × Int × R))
    (hm : Means c.interactions reward terminal parallel l) (hp : ∀ e ∈ l, 0 ≤ e.1)
    (hok : (observe c (run c ops) reward terminal parallel).2 = .ok ()) (k : Nat) :
    rewardsSeen (observe c (run c ops) reward terminal parallel).1 k =
      rewardsSeen (run c ops) k ++ (l.filter (fun e => e.1 = (k : Int))).map (fun e => e.2.2) ∧
    terminalsSeen (observe c (run c ops) reward terminal parallel).1 k =
      terminalsSeen (run c ops) k ++ (l.filter (fun e => e.1 = (k : Int))).map (fun e => e.2.1) := by
  have hg := run_good c ops
  generalize run c ops = st at *
  obtain ⟨ks, hks, _, e⟩ := ok_cases hm hok
  rw [e] at hok ⊢
  obtain ⟨h1, h2⟩ := places_range hks
  have hsz : Sized c.interactions { st with
      completed := st.completed.mapIdx (fun i b => b || (ks.map (·.1)).contains i),
      counter := restart (increment st.counter (ks.map (·.1))) (increment st.counter (ks.map (·.1))) ks } := by
    refine ⟨?_, ?_, hg.sized.terminals, hg.sized.rewards⟩
    · dsimp only; rw [List.length_mapIdx]; exact hg.sized.completed
    · dsimp only
      rw [restart_length]
      unfold increment
      rw [List.length_mapIdx]; exact hg.sized.counter
  obtain ⟨h3, h4⟩ := loop_seen (j := k) hsz (fun e he => (place_range (h2 e he)).1) hok
  rw [h3, h4, ← h1, List.filter_map, List.map_map, List.map_map]
  have hf : ks.filter (fun e => decide (e.1 = k)) = ks.filter ((fun e : Int × Int × R => decide (e.1 = (k : Int))) ∘ fun e => e.2) := by
    apply List.filter_congr
    intro e he
    have hr := place_range (h2 e he)
    have h0 := hp e.2 (by rw [← h1]; exact List.mem_map_of_mem he)
    show decide (e.1 = k) = decide (e.2.1 = (k : Int))
    rw [decide_eq_decide]
    have : e.2.1 = e.1 := by
      have := h2 e he
      unfold place at this
      rw [if_pos h0] at this
      split at this
      · have := Option.some.inj this; omega
      · cases this
    omega
  rw [hf]
  exact ⟨rfl, rfl⟩

/-- After an accepted call its interactions are completed and the others as before; the time steps of its interactions are counted, from zero
after a terminal. -/
theorem counted (c : Config) (ops : List (Op R)) (reward : Arg R) (terminal : Arg Code) (parallel : Arg Int) (l : List (Int × Int × R))
    (hm : Means c.interactions reward terminal parallel l) (hp : ∀ e ∈ l, 0 ≤ e.1) (hd : (l.map (fun e => e.1)).Nodup)
    (hok : (observe c (run c ops) reward terminal parallel).2 = .ok ()) (k : Nat) (b : Bool) (x : Nat)
    (hb : (run c ops).completed[k]? = some b) (hx : (run c ops).counter[k]? = some x) :
    ((∀ e ∈ l, e.1 ≠ k) → (observe c (run c ops) reward terminal parallel).1.completed[k]? = some b ∧
      (observe c (run c ops) reward terminal parallel).1.counter[k]? = some x) ∧
    (∀ e ∈ l, e.1 = k → b = false ∧ (observe c (run c ops) reward terminal parallel).1.completed[k]? = some true ∧
      (0 < e.2.1 → (observe c (run c ops) reward terminal parallel).1.counter[k]? = some 0) ∧
      (e.2.1 ≤ 0 → (observe c (run c ops) reward terminal parallel).1.counter[k]? = some (x + 1))) := by
  generalize run c ops = st at *
  obtain ⟨ks, hks, hwait, e⟩ := ok_cases hm hok
  rw [e]
  obtain ⟨h1, h2⟩ := places_range hks
  have hpl : ∀ e ∈ ks, e.2.1 = (e.1 : Int) := by
    intro e he
    have h0 := hp e.2 (by rw [← h1]; exact List.mem_map_of_mem he)
    have := h2 e he
    unfold place at this
    rw [if_pos h0] at this
    split at this
    · have := Option.some.inj this; omega
    · cases this
  rw [(loop_flags (c := c)).1, (loop_flags (c := c)).2]
  dsimp only
  rw [List.getElem?_mapIdx, hb]
  have hnd : (ks.map (fun e => e.1)).Nodup := by
    have : ks.map (fun e => e.1) = (l.map (fun e => e.1)).map Int.toNat := by
      rw [← h1, List.map_map, List.map_map]
      apply List.map_congr_left
      intro e he
      have := hpl e he
      show e.1 = e.2.1.toNat
      omega
    rw [this]
    unfold List.Nodup at hd ⊢
    rw [List.pairwise_map]
    refine hd.imp_of_mem (fun {a b} ha hb hne hab => hne ?_)
    obtain ⟨a', ha', rfl⟩ := List.mem_map.1 ha
    obtain ⟨b', hb', rfl⟩ := List.mem_map.1 hb
    have := hp a' ha'
    have := hp b' hb'
    omega
  constructor
  · intro hno
    have hno' : ∀ e ∈ ks, e.1 ≠ k := by
      intro e he hk
      refine hno e.2 (by rw [← h1]; exact List.mem_map_of_mem he) ?_
      rw [hpl e he, hk]
    have hnot : k ∉ ks.map (fun e => e.1) := by
      intro h
      obtain ⟨e, he, hk⟩ := List.mem_map.1 h
      exact hno' e he hk
    constructor
    · have hcont : (ks.map (·.1)).contains k = false := Bool.eq_false_iff.2 (fun h => hnot (List.contains_iff_mem.1 h))
      rw [Option.map_some, hcont, Bool.or_false]
    · rw [restart_other _ _ _ hno', increment_get, hx, Option.map_some, if_neg hnot]
  · intro e he hk
    obtain ⟨e', he', rfl⟩ : ∃ e' ∈ ks, e'.2 = e := by rw [← h1] at he; exact List.mem_map.1 he
    have hk' : e'.1 = k := by have := hpl e' he'; omega
    have hmem : k ∈ ks.map (fun e => e.1) := List.mem_map.2 ⟨e', he', hk'⟩
    have hcont : (ks.map (·.1)).contains k = true := List.contains_iff_mem.2 hmem
    have hlen : e'.1 < (increment st.counter (ks.map (·.1))).length := by
      unfold increment
      rw [List.length_mapIdx, hk']
      exact (List.getElem?_eq_some_iff.1 hx).1
    have hent := restart_entry (increment st.counter (ks.map (·.1))) ks (increment st.counter (ks.map (·.1))) e' hnd he' hlen
    rw [hk'] at hent
    refine ⟨?_, ?_, ?_, ?_⟩
    · have := hwait e' he'
      rw [hk', List.getD_eq_getElem?_getD, hb] at this
      exact this
    · rw [Option.map_some, hcont, Bool.or_true]
    · intro ht
      rw [hent, if_pos ht]
    · intro ht
      rw [hent, if_neg (by omega), List.getD_eq_getElem?_getD, increment_get, hx, Option.map_some, if_pos hmem]
      rfl

/-- Whatever calls were made, accepted or not: the batches passed to the model are those it asserts, of one interaction, and only the last
time step of a batch may be terminal. -/
theorem sent_acceptable (c : Config) (ops : List (Op R)) : ∀ s ∈ (run c ops).sent, Acceptable c.interactions s := (run_good c ops).sent

/-- Whatever calls were made: time steps wait only as long as the episode goes on and the buffer is not full. -/
theorem prompt (c : Config) (ops : List (Op R)) : Prompt c (run c ops) := run_prompt c ops

/-- At the beginning and after a reset no interaction waits for an observation, nothing is counted and nothing is waiting; what was passed to
the model remains. -/
theorem initial (c : Config) (ops : List (Op R)) (k : Nat) (h : k < c.interactions) :
    (run c ([] : List (Op R))).sent = [] ∧ (run c (ops ++ [.reset])).sent = (run c ops).sent ∧
    ∀ st ∈ [run c ([] : List (Op R)), run c (ops ++ [.reset])], st.completed[k]? = some true ∧ st.counter[k]? = some 0 ∧
      st.terminals[k]? = some [] ∧ st.rewards[k]? = some [] := by
  have hr : run c (ops ++ [.reset]) = { State.init c.interactions with sent := (run c ops).sent } := by
    unfold run
    rw [List.foldl_append]
    rfl
  rw [hr]
  refine ⟨rfl, rfl, fun st hst => ?_⟩
  have key : ∀ sent : List (Call R), st = { State.init c.interactions with sent := sent } → st.completed[k]? = some true ∧
      st.counter[k]? = some 0 ∧ st.terminals[k]? = some [] ∧ st.rewards[k]? = some [] := by
    rintro sent rfl
    unfold State.init
    dsimp only
    rw [List.getElem?_replicate, List.getElem?_replicate, List.getElem?_replicate, List.getElem?_replicate, if_pos h, if_pos h, if_pos h, if_pos h]
    exact ⟨rfl, rfl, rfl, rfl⟩
  rcases List.mem_cons.1 hst with rfl | hst
  · exact key [] rfl
  · exact key _ (List.mem_singleton.1 hst)

/-- After acting exactly the interactions which acted, and those which waited before, wait for an observation; nothing else changes. -/
theorem acted (c : Config) (ops : List (Op R)) (ks : List Nat) : let st := run c (ops ++ [.act ks])
    (∀ (k : Nat), st.completed[k]? = some false ↔ (run c ops).completed[k]? = some false ∨ k < c.interactions ∧ k ∈ ks) ∧
    st.counter = (run c ops).counter ∧ st.terminals = (run c ops).terminals ∧ st.rewards = (run c ops).rewards ∧
    st.sent = (run c ops).sent := by
  intro st
  have hs : st = step c (run c ops) (.act ks) := by
    show run c (ops ++ [.act ks]) = _
    unfold run
    rw [List.foldl_append]
    rfl
  have hl : (run c ops).completed.length = c.interactions := (run_good c ops).sized.completed
  rw [hs]
  refine ⟨fun k => ?_, rfl, rfl, rfl, rfl⟩
  unfold step
  dsimp only
  rw [List.getElem?_mapIdx]
  rcases hk : (run c ops).completed[k]? with _ | b
  · rw [List.getElem?_eq_none_iff] at hk
    simp
    omega
  · have := (List.getElem?_eq_some_iff.1 hk).1
    rw [hl] at this
    cases b <;> simp [this]

/-- Interactions not waiting for an observation are refused, and the agent is left as it was. -/
theorem not_waiting (c : Config) (st : State R) (reward : Arg R) (terminal : Arg Code) (parallel : Arg Int) (l : List (Int × Int × R))
    (hm : Means c.interactions reward terminal parallel l) (hp : ∀ e ∈ l, 0 ≤ e.1 ∧ e.1 < c.interactions)
    (hc : ∃ e ∈ l, st.completed[e.1.toNat]? = some true) : observe c st reward terminal parallel = (st, .error .precede) := by
  unfold observe
  rw [forms_iff.2 hm]
  dsimp only
  rw [places_some hp]
  dsimp only
  obtain ⟨e, he, hce⟩ := hc
  rw [if_pos]
  rw [List.any_eq_true]
  refine ⟨_, List.mem_map_of_mem he, ?_⟩
  dsimp only
  rw [List.getD_eq_getElem?_getD, hce]
  rfl

/-- Negative interactions count from the end, also when it is checked whether they wait for an observation. -/
theorem negative_not_waiting (c : Config) (st : State R) (reward : Arg R) (terminal : Arg Code) (parallel : Arg Int) (l : List (Int × Int × R))
    (hm : Means c.interactions reward terminal parallel l) (hp : ∀ e ∈ l, -(c.interactions : Int) ≤ e.1 ∧ e.1 < 0)
    (hc : ∃ e ∈ l, st.completed[(e.1 + c.interactions).toNat]? = some true) : observe c st reward terminal parallel = (st, .error .precede) := by
  unfold observe
  rw [forms_iff.2 hm]
  dsimp only
  rw [places_negative hp]
  dsimp only
  obtain ⟨e, he, hce⟩ := hc
  rw [if_pos]
  rw [List.any_eq_true]
  refine ⟨_, List.mem_map_of_mem he, ?_⟩
  dsimp only
  rw [List.getD_eq_getElem?_getD, hce]
  rfl

/-- Interactions which do not exist are refused, and the agent is left as it was. -/
theorem not_existing (c : Config) (st : State R) (reward : Arg R) (terminal : Arg Code) (parallel : Arg Int) (l : List (Int × Int × R))
    (hm : Means c.interactions reward terminal parallel l) (hp : ∃ e ∈ l, e.1 < -(c.interactions : Int) ∨ (c.interactions : Int) ≤ e.1) :
    observe c st reward terminal parallel = (st, .error .index) := by
  unfold observe
  rw [forms_iff.2 hm]
  dsimp only
  obtain ⟨e, he, hr⟩ := hp
  rw [places_none he hr]

/-- Time steps beyond the limit are refused. -/
theorem too_long (c : Config) (ops : List (Op R)) (reward : Arg R) (terminal : Arg Code) (parallel : Arg Int) (l : List (Int × Int × R))
    (hm : Means c.interactions reward terminal parallel l) (hp : ∀ e ∈ l, 0 ≤ e.1 ∧ e.1 < c.interactions)
    (hc : ∀ e ∈ l, (run c ops).completed[e.1.toNat]? = some false) (m : Nat) (hl : c.limit = some m)
    (hx : ∃ e ∈ l, e.2.1 = 0 ∧ ∃ x, (run c ops).counter[e.1.toNat]? = some x ∧ m ≤ x) :
    (observe c (run c ops) reward terminal parallel).2 = .error .tooLong := by
  generalize run c ops = st at *
  unfold observe
  rw [forms_iff.2 hm]
  dsimp only
  rw [places_some hp]
  dsimp only
  have h1 : (l.map (fun e => (e.1.toNat, e))).any (fun e => st.completed.getD e.1 false) = false := by
    rw [List.any_eq_false]
    intro e he
    obtain ⟨x, hx, rfl⟩ := List.mem_map.1 he
    dsimp only
    rw [List.getD_eq_getElem?_getD, hc x hx]
    exact Bool.false_ne_true
  rw [h1, if_neg Bool.false_ne_true, if_pos]
  obtain ⟨e, he, h0, x, hxx, hmx⟩ := hx
  unfold exceeds
  rw [hl]
  dsimp only
  rw [List.any_eq_true]
  refine ⟨_, List.mem_map_of_mem he, ?_⟩
  dsimp only
  have hmem : e.1.toNat ∈ (l.map (fun e => (e.1.toNat, e))).map (fun e => e.1) :=
    List.mem_map.2 ⟨_, List.mem_map_of_mem he, rfl⟩
  rw [h0, List.getD_eq_getElem?_getD, increment_get, hxx, Option.map_some, if_pos hmem]
  simp
  omega

/-- A call which raises an exception leaves the agent as it was, unless the episode is too long, or terminals or interactions are out of
range. What is missing: these exceptions, see the violations. -/
theorem unchanged_partial (c : Config) (st : State R) (reward : Arg R) (terminal : Arg Code) (parallel : Arg Int) (e : Err)
    (h : (observe c st reward terminal parallel).2 = .error e) (h1 : e ≠ .tooLong) (h2 : e ≠ .terminal) (h3 : e ≠ .parallel) :
    (observe c st reward terminal parallel).1 = st := by
  have hloop : ∀ (l : List (Nat × Int × Int × R)) (st : State R), (loop c st l).2 = .error e → e = .terminal ∨ e = .parallel := by
    intro l
    induction l with
    | nil => intro st h; cases h
    | cons a l ih =>
      obtain ⟨k, p, t, r⟩ := a
      intro st h
      unfold loop at h
      dsimp only at h
      split at h
      · exact ih _ h
      · split at h
        · rename_i e' he
          cases h
          unfold convert at he
          split at he
          · cases he; exact Or.inl rfl
          · split at he
            · cases he; exact Or.inr rfl
            · cases he
        · exact ih _ h
  unfold observe at h ⊢
  split
  · rfl
  · rename_i l hl
    rw [hl] at h
    dsimp only at h
    split
    · rfl
    · rename_i ks hks
      rw [hks] at h
      dsimp only at h
      split
      · rfl
      · rename_i hc
        rw [if_neg hc] at h
        dsimp only at h ⊢
        split at h
        · cases h; exact absurd rfl h1
        · rcases hloop _ _ h with h' | h'
          · exact absurd h' h2
          · exact absurd h' h3

/-- A time step beyond the limit raises an exception, but is completed and counted; its reward is lost. -/
theorem long_violation : let c : Config := ⟨1, some 1, none⟩
    let st : State Int := run c [.act [0], .observe (.single 5) (.single (.py false)) (.single 0), .act [0]]
    observe c st (.single 7) (.single (.py false)) (.single 0) = (⟨[true], [2], [[0]], [[5]], []⟩, .error .tooLong) ∧
    st = ⟨[false], [1], [[0]], [[5]], []⟩ := by decide

/-- A terminal which is not 0, 1 or 2 raises an exception, and the rewards waiting are lost. -/
theorem code_violation : let c : Config := ⟨1, none, none⟩
    let st : State Int := run c [.act [0], .observe (.single 5) (.single (.py false)) (.single 0), .act [0]]
    rewardsSeen st 0 = [5] ∧ (observe c st (.single 7) (.single (.num 3)) (.single 0)).2 = .error .terminal ∧
    rewardsSeen (observe c st (.single 7) (.single (.num 3)) (.single 0)).1 0 = [] := by decide

/-- A negative interaction counts from the end, but the end of its episode raises an exception, and the rewards waiting are lost. -/
theorem negative_violation : let c : Config := ⟨2, none, none⟩
    let st : State Int := run c [.act [1], .observe (.single 5) (.single (.py false)) (.single (-1)), .act [1]]
    rewardsSeen st 1 = [5] ∧ (observe c st (.single 7) (.single (.py true)) (.single (-1))).2 = .error .parallel ∧
    rewardsSeen (observe c st (.single 7) (.single (.py true)) (.single (-1))).1 1 = [] := by decide

/-- Twice the same interaction: two observations of one action, and one counted. -/
theorem repeated_violation : let c : Config := ⟨1, none, none⟩
    let st : State Int := run c [.act [0]]
    let r := observe c st (.list [5, 7]) (.single (.py false)) (.list [0, 0])
    r.2 = .ok () ∧ rewardsSeen r.1 0 = [5, 7] ∧ r.1.counter = [1] := by decide

/-- Two interactions act and observe; one of them ends. -/
example : let c : Config := ⟨2, some 3, none⟩
    let st : State Int := run c [.act [0, 1], .observe (.list [5, 7]) (.single (.py false)) (.single 0), .act [0, 1]]
    st = ⟨[false, false], [1, 1], [[0], [0]], [[5], [7]], []⟩ ∧
    observe c st (.list [1, 2]) (.list [.py false, .num 2]) (.array [0, 1]) =
      (⟨[true, true], [2, 0], [[0, 0], []], [[5, 1], []], [⟨1, [0, 2], [7, 2]⟩]⟩, .ok ()) := by decide

end Verif.Props.ObserveState
