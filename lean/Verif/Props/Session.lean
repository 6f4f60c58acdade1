import Verif.Session.Lemmas

/-!
# Properties C66, C67: counters, statistics and internal states of a session

C66, the state of an interaction depends on its own running episode only:
* `run_defined`, `run_valid`: exactly the valid calls succeed.
* `counters`, `reported`: timesteps, episodes and updates are counted exactly.
* `statistics`: length and return of the running episode.
* `internals_partial`: the internal state; missing are batches which contain an interaction twice (`repeated_violation`).
* `separation_partial`: interactions do not influence each other.
* `acted_partial`, `variables`: the actions given, and the variables used.
* `independent_unchanged`, `independent_agrees_partial`: independent acting leaves no traces, and gives the same actions.

C67, a reset starts new episodes:
* `reset_partial`: it does if no episode is running; otherwise it does not (`reset_violation`).
-/

namespace Verif.Props.Session

open Verif.Session

variable {V S I A : Type}

/-- A network for examples: the internal state counts, the action tells state and internal state. -/
def countNet : Net Nat Nat Nat (Nat × Nat) where
  step v s i := ((s + v, i), i + 1)
  initial := 0

/-- Two interactions; the first one has ended an episode, with an update. -/
def session : List (Call Nat Nat Nat) :=
  [.act [(0, 5), (1, 6)], .observe 0 [1] [2] (some 10), .independent [(3, 8)], .act [(1, 7)], .observe 1 [0, 0] [1, 3] none,
    .act [(0, 4)]]

/-- Valid calls do not fail. -/
theorem run_defined (net : Net V S I A) (n : Nat) (vars : V) (calls : List (Call V S I)) (h : ∀ c ∈ calls, c.valid n) :
    ∃ rs st, run net (initState net n vars) calls = some (rs, st) := by
  induction calls using snoc_induction with
  | nil => exact ⟨[], _, rfl⟩
  | snoc cs c ih =>
    obtain ⟨rs, st, h1⟩ := ih fun c' hc' => h c' (by simp [hc'])
    obtain ⟨hl, hr, hi⟩ := run_sizes net n vars cs rs st h1
    have hc := h c (by simp)
    have he : ∃ r st', exec net st c = some (r, st') := by
      cases c with
      | act batch =>
        obtain ⟨r, hr⟩ := rows_ok net st.vars st.internals batch (by rw [hi]; exact hc)
        exact ⟨_, _, by simp only [exec, act, hr]; rfl⟩
      | independent batch => exact ⟨_, _, rfl⟩
      | observe p ts rs' u =>
        obtain ⟨hp, hlen, k, e, he, rfl⟩ := hc
        have hv : observeValid st.length.length p (List.replicate k 0 ++ [e]) rs' = true := by
          unfold observeValid
          rw [hlen, hl]
          have h0 : (List.replicate k 0).countP (fun x => decide (0 < x)) = 0 := by
            rw [List.countP_eq_zero]
            intro a ha
            rw [(List.mem_replicate.1 ha).2]
            simp
          have h3 : (List.replicate k 0).all (fun x => decide (x < 3)) = true := by
            rw [List.all_eq_true]
            intro a ha
            rw [(List.mem_replicate.1 ha).2]
            rfl
          simp only [List.all_append, h3, List.all_cons, List.all_nil, he, hp, List.countP_append, h0, List.countP_cons,
            List.countP_nil, List.getLast?_append, List.getLast?_singleton, Option.some_or, Option.getD_some]
          cases e <;> simp
        exact ⟨_, _, by simp only [exec, observe, if_pos hv]; rfl⟩
      | reset => exact ⟨_, _, rfl⟩
    obtain ⟨r, st', he⟩ := he
    exact ⟨rs ++ [r], st', run_append net _ st st' cs [c] rs [r] h1 (by simp [run, he])⟩

/-- Only valid calls succeed. -/
theorem run_valid (net : Net V S I A) (n : Nat) (vars : V) (calls : List (Call V S I)) (rs : List (Result I A)) (st : State V I)
    (h : run net (initState net n vars) calls = some (rs, st)) : ∀ c ∈ calls, c.valid n := by
  induction calls using snoc_induction generalizing rs st with
  | nil => intro c hc; cases hc
  | snoc cs c ih =>
    obtain ⟨rs0, st0, r, h1, h2, _⟩ := run_snoc net _ st cs c rs h
    obtain ⟨hl, _, hi⟩ := run_sizes net n vars cs rs0 st0 h1
    intro c' hc'
    rcases List.mem_append.1 hc' with hc' | hc'
    · exact ih rs0 st0 h1 c' hc'
    · rw [List.mem_singleton.1 hc']
      cases c with
      | act batch =>
        obtain ⟨r', h3, _⟩ := act_spec net st0 st batch r h2
        have := (rows_spec net _ _ batch r' h3).2.2.2
        rw [hi] at this
        exact this
      | independent batch => trivial
      | observe p ts rs' u =>
        simp only [exec, observe] at h2
        split at h2
        · rename_i hv
          obtain ⟨_, h4, h5⟩ := valid_any _ _ _ _ hv
          rw [hl] at h4
          exact ⟨h4, h5, valid_form _ _ _ _ hv⟩
        · cases h2
      | reset => trivial

example : ∀ c ∈ session, c.valid 2 := by
  intro c hc
  simp only [session, List.mem_cons, List.not_mem_nil, or_false] at hc
  rcases hc with rfl | rfl | rfl | rfl | rfl | rfl
  · simp [Call.valid]
  · exact ⟨by decide, rfl, 0, 1, by decide, rfl⟩
  · trivial
  · simp [Call.valid]
  · exact ⟨by decide, rfl, 1, 0, by decide, rfl⟩
  · simp [Call.valid]

/-- The counters are the number of timesteps acted on, of ended episodes, and of updates. -/
theorem counters (net : Net V S I A) (n : Nat) (vars : V) (calls : List (Call V S I)) (rs : List (Result I A)) (st : State V I)
    (h : run net (initState net n vars) calls = some (rs, st)) :
    st.timesteps = (calls.map Call.acted).sum ∧ st.episodes = calls.countP Call.terminal ∧
      st.updates = calls.countP fun c => c.updated.isSome := by
  induction calls using snoc_induction generalizing rs st with
  | nil =>
    simp only [run, Option.some.injEq, Prod.mk.injEq] at h
    rw [← h.2]
    exact ⟨rfl, rfl, rfl⟩
  | snoc cs c ih =>
    obtain ⟨rs0, st1, r, h1, h2, _⟩ := run_snoc net _ st cs c rs h
    obtain ⟨i1, i2, i3⟩ := ih rs0 st1 h1
    simp only [List.map_append, List.sum_append, List.countP_append, ← i1, ← i2, ← i3]
    cases c with
    | act batch =>
      obtain ⟨rs', _, _, h3⟩ := act_spec net st1 st batch r h2
      subst h3
      simp [Call.acted, Call.terminal, Call.updated]
    | independent batch =>
      simp only [exec, Option.some.injEq, Prod.mk.injEq] at h2
      rw [← h2.2]
      simp [Call.acted, Call.terminal, Call.updated]
    | observe p ts rs' u =>
      obtain ⟨_, _, _, h4, h5, h6, _⟩ := observe_spec net st1 st p ts rs' u r h2
      rw [h4, h5, h6]
      refine ⟨by simp [Call.acted], ?_, ?_⟩
      · rw [List.countP_cons, List.countP_nil, Nat.zero_add]; rfl
      · rw [List.countP_cons, List.countP_nil, Nat.zero_add]; rfl
    | reset =>
      simp only [exec, Option.some.injEq, Prod.mk.injEq] at h2
      rw [← h2.2]
      simp [Call.acted, Call.terminal, Call.updated]

/-- What a call reports are the counters after the call. -/
theorem reported (net : Net V S I A) (st st' : State V I) (c : Call V S I) (r : Result I A) (h : exec net st c = some (r, st')) :
    r.agrees c st' := by
  cases c with
  | act batch =>
    obtain ⟨rs', _, h2, h3⟩ := act_spec net st st' batch r h
    subst h2 h3
    rfl
  | independent batch =>
    simp only [exec, Option.some.injEq, Prod.mk.injEq] at h
    rw [← h.1]
    trivial
  | observe p ts rs' u =>
    obtain ⟨_, _, _, _, _, _, h7, _⟩ := observe_spec net st st' p ts rs' u r h
    subst h7
    exact ⟨rfl, rfl, rfl⟩
  | reset =>
    simp only [exec, Option.some.injEq, Prod.mk.injEq] at h
    rw [← h.1, ← h.2]
    exact ⟨rfl, rfl, rfl⟩

example : (run countNet (initState countNet 2 0) session).map (fun x => (x.2.timesteps, x.2.episodes, x.2.updates)) =
    some (4, 1, 1) := by decide

/-- Length and return of an interaction are the number and the sum of the rewards observed in its running episode. -/
theorem statistics (net : Net V S I A) (n : Nat) (vars : V) (calls : List (Call V S I)) (rs : List (Result I A))
    (st : State V I) (h : run net (initState net n vars) calls = some (rs, st)) (p : Nat) (hp : p < n) :
    st.length[p]? = some (rewards p calls).length ∧ st.ret[p]? = some (rewards p calls).sum := by
  induction calls using snoc_induction generalizing rs st with
  | nil =>
    simp only [run, Option.some.injEq, Prod.mk.injEq] at h
    rw [← h.2]
    simp [initState, hp, rewards, current]
  | snoc cs c ih =>
    obtain ⟨rs0, st1, r, h1, h2, _⟩ := run_snoc net _ st cs c rs h
    obtain ⟨i1, i2⟩ := ih rs0 st1 h1
    obtain ⟨hl, hr, _⟩ := run_sizes net n vars cs rs0 st1 h1
    have keep : c.ends p = false → c.rewards p = [] → rewards p (cs ++ [c]) = rewards p cs := by
      intro h3 h4
      unfold rewards
      rw [current_snoc]
      simp [h3, h4]
    cases c with
    | act batch =>
      obtain ⟨rs', _, _, h3⟩ := act_spec net st1 st batch r h2
      subst h3
      rw [keep rfl rfl]
      exact ⟨i1, i2⟩
    | independent batch =>
      simp only [exec, Option.some.injEq, Prod.mk.injEq] at h2
      rw [← h2.2, keep rfl rfl]
      exact ⟨i1, i2⟩
    | observe q ts rs' u =>
      obtain ⟨hq, hlen, _, _, _, _, _, h8, h9, _⟩ := observe_spec net st1 st q ts rs' u r h2
      rw [h8, h9]
      by_cases hqp : q = p
      · subst hqp
        cases ht : ts.any (0 < ·) with
        | true =>
          have e : rewards q (cs ++ [(.observe q ts rs' u : Call V S I)]) = [] := by
            unfold rewards
            rw [current_snoc]
            have he : (id (.observe q ts rs' u : Call V S I)).ends q = true := by simp [Call.ends, ht]
            rw [if_pos he]
            rfl
          rw [e, if_pos rfl, if_pos rfl]
          simp only [scatter]
          constructor
          · rw [List.getElem?_set_self (by rw [scatterAdd_length, hl]; exact hp)]; rfl
          · rw [List.getElem?_set_self (by rw [scatterAdd_length, hr]; exact hp)]; rfl
        | false =>
          have e : rewards q (cs ++ [(.observe q ts rs' u : Call V S I)]) = rewards q cs ++ rs' := by
            unfold rewards
            rw [current_snoc]
            have he : (id (.observe q ts rs' u : Call V S I)).ends q = false := by simp [Call.ends, ht]
            rw [he]
            simp [Call.rewards]
          rw [e]
          simp only [Bool.false_eq_true, if_false]
          rw [scatterAdd_at _ _ _ _ i1, scatterAdd_at _ _ _ _ i2, sum_append, List.length_append, hlen]
          exact ⟨rfl, rfl⟩
      · have he : (.observe q ts rs' u : Call V S I).ends p = false := by simp [Call.ends, hqp]
        have hr : (.observe q ts rs' u : Call V S I).rewards p = [] := by simp [Call.rewards, hqp]
        rw [keep he hr]
        have hne : p ∉ ([(q, 0)] : List (Nat × Nat)).map (·.1) := by simp [Ne.symm hqp]
        have hne' : p ∉ ([(q, 0)] : List (Nat × Rat)).map (·.1) := by simp [Ne.symm hqp]
        constructor
        · split
          · rw [scatter_other _ _ _ hne, scatterAdd_other _ _ _ _ (Ne.symm hqp), i1]
          · rw [scatterAdd_other _ _ _ _ (Ne.symm hqp), i1]
        · split
          · rw [scatter_other _ _ _ hne', scatterAdd_other _ _ _ _ (Ne.symm hqp), i2]
          · rw [scatterAdd_other _ _ _ _ (Ne.symm hqp), i2]
    | reset =>
      simp only [exec, Option.some.injEq, Prod.mk.injEq] at h2
      rw [← h2.2, keep rfl rfl]
      exact ⟨i1, i2⟩

example : (run countNet (initState countNet 2 0) session).map (fun x => (x.2.length, x.2.ret)) = some ([0, 2], [0, 4]) ∧
    rewards 1 session = [1, 3] := by decide +kernel

/-- The internal state of an interaction results from the states of its running episode, each with the variables of that time.
Missing: batches which contain an interaction twice. -/
theorem internals_partial (net : Net V S I A) (n : Nat) (vars : V) (calls : List (Call V S I)) (rs : List (Result I A))
    (st : State V I) (h : run net (initState net n vars) calls = some (rs, st)) (hd : ∀ c ∈ calls, c.distinct) (p : Nat)
    (hp : p < n) : st.internals[p]? = some (net.after (seen p vars calls)) := by
  induction calls using snoc_induction generalizing rs st with
  | nil =>
    simp only [run, Option.some.injEq, Prod.mk.injEq] at h
    rw [← h.2]
    simp [initState, hp, seen, annotate, current, Net.after]
  | snoc cs c ih =>
    obtain ⟨rs0, st1, r, h1, h2, _⟩ := run_snoc net _ st cs c rs h
    have i1 := ih rs0 st1 h1 (fun c' hc' => hd c' (by simp [hc']))
    obtain ⟨_, _, hi⟩ := run_sizes net n vars cs rs0 st1 h1
    have hv := run_vars net _ cs rs0 st1 h1
    have hv' : st1.vars = cs.foldl (fun v c => c.updated.getD v) vars := hv
    have grow : c.ends p = false → seen p vars (cs ++ [c]) = seen p vars cs ++ (c.states p).map fun s => (st1.vars, s) := by
      intro he
      unfold seen
      rw [annotate_snoc, current_snoc, hv']
      simp [he]
    cases c with
    | act batch =>
      obtain ⟨rs', hrows, _, h3⟩ := act_spec net st1 st batch r h2
      subst h3
      rw [grow rfl]
      obtain ⟨k1, _, k3, _⟩ := rows_spec net st1.vars st1.internals batch rs' hrows
      have hn : (batch.map (·.1)).Nodup := hd (.act batch) (by simp)
      have keys : (rs'.map fun x => (x.1, x.2.2)).map (·.1) = batch.map (·.1) := by
        rw [List.map_map, ← k1]; rfl
      show (scatter st1.internals (rs'.map fun x => (x.1, x.2.2)))[p]? = _
      rcases filter_nodup batch p hn with ⟨h4, h5⟩ | ⟨s, h4, h5⟩
      · rw [scatter_other _ _ _ (by rw [keys]; exact h4), i1]
        simp [Call.states, h5]
      · have hm := k3 p s _ h4 i1
        rw [scatter_at _ _ (by rw [keys]; exact hn) p (net.step st1.vars s (net.after (seen p vars cs))).2
          (List.mem_map.2 ⟨_, hm, rfl⟩) (by rw [hi]; exact hp)]
        simp [Call.states, h5, Net.after]
    | independent batch =>
      simp only [exec, Option.some.injEq, Prod.mk.injEq] at h2
      rw [← h2.2, grow rfl, i1]
      simp [Call.states]
    | observe q ts rs' u =>
      obtain ⟨hq, _, _, _, _, _, _, _, _, h10⟩ := observe_spec net st1 st q ts rs' u r h2
      rw [h10]
      by_cases hqp : q = p
      · subst hqp
        cases ht : ts.any (0 < ·) with
        | true =>
          have he : (.observe q ts rs' u : Call V S I).ends q = true := by simp [Call.ends, ht]
          have e : seen q vars (cs ++ [(.observe q ts rs' u : Call V S I)]) = [] := by
            unfold seen
            rw [annotate_snoc, current_snoc, if_pos he]
            rfl
          rw [e, if_pos rfl]
          simp only [scatter]
          rw [List.getElem?_set_self (by rw [hi]; exact hp)]
          rfl
        | false =>
          have he : (.observe q ts rs' u : Call V S I).ends q = false := by simp [Call.ends, ht]
          rw [grow he]
          simp only [Bool.false_eq_true, if_false]
          rw [i1]
          simp [Call.states]
      · have he : (.observe q ts rs' u : Call V S I).ends p = false := by simp [Call.ends, hqp]
        rw [grow he]
        have hne : p ∉ ([(q, net.initial)] : List (Nat × I)).map (·.1) := by simp [Ne.symm hqp]
        split
        · rw [scatter_other _ _ _ hne, i1]
          simp [Call.states]
        · rw [i1]
          simp [Call.states]
    | reset =>
      simp only [exec, Option.some.injEq, Prod.mk.injEq] at h2
      rw [← h2.2, grow rfl, i1]
      simp [Call.states]

example : (run countNet (initState countNet 2 0) session).map (fun x => x.2.internals) = some [1, 2] ∧
    seen 0 0 session = [(10, 4)] ∧ seen 1 0 session = [(0, 6), (10, 7)] := by decide

/-- Interactions do not influence each other: if an interaction has seen the same in two sessions, then it is in the same internal
state in both. Missing: batches which contain an interaction twice. -/
theorem separation_partial (net : Net V S I A) (n m : Nat) (vars vars' : V) (calls calls' : List (Call V S I))
    (rs rs' : List (Result I A)) (st st' : State V I) (h : run net (initState net n vars) calls = some (rs, st))
    (h' : run net (initState net m vars') calls' = some (rs', st')) (hd : ∀ c ∈ calls, c.distinct)
    (hd' : ∀ c ∈ calls', c.distinct) (p q : Nat) (hp : p < n) (hq : q < m) (hs : seen p vars calls = seen q vars' calls') :
    st.internals[p]? = st'.internals[q]? := by
  rw [internals_partial net n vars calls rs st h hd p hp, internals_partial net m vars' calls' rs' st' h' hd' q hq, hs]

example : seen 0 0 session = seen 0 10 ([.act [(0, 4)]] : List (Call Nat Nat Nat)) := by decide

/-- An independent call changes nothing. -/
theorem independent_unchanged (net : Net V S I A) (st st' : State V I) (batch : List (S × I)) (r : Result I A)
    (h : exec net st (.independent batch) = some (r, st')) :
    st' = st ∧ r = .independent (batch.map fun x => net.step st.vars x.1 x.2) := by
  simp only [exec, Option.some.injEq, Prod.mk.injEq] at h
  exact ⟨h.2.symm, h.1.symm⟩

/-- Acting for one interaction gives the same actions as independent acting with the internal states which the calls return:
first for the whole running episode, then for the next state. Missing: batches which contain an interaction twice. -/
theorem independent_agrees_partial (net : Net V S I A) (n : Nat) (vars : V) (calls : List (Call V S I)) (rs : List (Result I A))
    (st : State V I) (h : run net (initState net n vars) calls = some (rs, st)) (hd : ∀ c ∈ calls, c.distinct) (p : Nat)
    (hp : p < n) (s : S) :
    ∃ a st', exec net st (.act [(p, s)]) = some (.acted [a] (st.timesteps + 1), st') ∧
      net.actions net.initial (seen p vars calls ++ [(st.vars, s)]) =
        net.actions net.initial (seen p vars calls) ++ [a] := by
  have hi := internals_partial net n vars calls rs st h hd p hp
  have hx : ∃ st', exec net st (.act [(p, s)]) =
      some (.acted [(net.step st.vars s (net.after (seen p vars calls))).1] (st.timesteps + 1), st') := by
    simp only [exec, act, rows, hi, List.map_cons, List.map_nil, List.length_singleton]
    exact ⟨_, rfl⟩
  obtain ⟨st', hx⟩ := hx
  refine ⟨(net.step st.vars s (net.after (seen p vars calls))).1, st', hx, ?_⟩
  have key : ∀ (xs : List (V × S)) (i : I), net.actions i (xs ++ [(st.vars, s)]) =
      net.actions i xs ++ [(net.step st.vars s (xs.foldl (fun i x => (net.step x.1 x.2 i).2) i)).1] := by
    intro xs
    induction xs with
    | nil => intro i; rfl
    | cons x xs ih => intro i; simp [Net.actions, ih]
  exact key _ _

example : countNet.actions 0 [(0, 6), (10, 7)] = [(6, 0), (17, 1)] := by decide

/-- The actions of a batch: each row is acted on with the present variables and the internal state of its interaction, whatever else
is in the batch. Missing: earlier batches which contain an interaction twice. -/
theorem acted_partial (net : Net V S I A) (n : Nat) (vars : V) (calls : List (Call V S I)) (rs : List (Result I A))
    (st st' : State V I) (h : run net (initState net n vars) calls = some (rs, st)) (hd : ∀ c ∈ calls, c.distinct)
    (batch : List (Nat × S)) (hb : ∀ x ∈ batch, x.1 < n) (r : Result I A) (hx : exec net st (.act batch) = some (r, st')) :
    r = .acted (batch.map fun x => (net.step st.vars x.2 (net.after (seen x.1 vars calls))).1)
      ((calls.map Call.acted).sum + batch.length) := by
  have key : ∀ b : List (Nat × S), (∀ x ∈ b, x.1 < n) → rows net st.vars st.internals b =
      some (b.map fun x => (x.1, net.step st.vars x.2 (net.after (seen x.1 vars calls)))) := by
    intro b
    induction b with
    | nil => intro _; rfl
    | cons y b ih =>
      intro hy
      have h1 := internals_partial net n vars calls rs st h hd y.1 (hy y List.mem_cons_self)
      simp only [rows, h1, ih fun x hx => hy x (List.mem_cons_of_mem _ hx), List.map_cons]
  simp only [exec, act, key batch hb, Option.some.injEq, Prod.mk.injEq, List.map_map] at hx
  rw [← hx.1, (counters net n vars calls rs st h).1]
  rfl

example : (exec countNet (initState countNet 2 0) (.act [(0, 5), (1, 6)])).map (·.1) = some (.acted [(5, 0), (6, 0)] 2) := by
  decide +kernel

/-- The variables are those of the last update. -/
theorem variables (net : Net V S I A) (n : Nat) (vars : V) (calls : List (Call V S I)) (rs : List (Result I A)) (st : State V I)
    (h : run net (initState net n vars) calls = some (rs, st)) :
    st.vars = (calls.filterMap Call.updated).getLast?.getD vars := by
  have key : ∀ (calls : List (Call V S I)) (v0 : V),
      calls.foldl (fun v c => c.updated.getD v) v0 = (calls.filterMap Call.updated).getLast?.getD v0 := by
    intro calls
    induction calls with
    | nil => intro v0; rfl
    | cons c cs ih =>
      intro v0
      rw [List.foldl_cons, ih]
      cases hu : c.updated with
      | none => simp [List.filterMap_cons, hu]
      | some v => simp [List.filterMap_cons, hu, List.getLast?_cons]
  rw [run_vars net _ calls rs st h]
  exact key calls _

example : session.filterMap Call.updated ≠ [] := by decide

/-- A batch may contain an interaction twice: `act` checks that all interactions are ready (`recorder.py:246`), but not that they
are different. Then one of the states leaves no trace in the internal state, and both see the same one. -/
theorem repeated_violation :
    ∃ (calls : List (Call Nat Nat Nat)) (rs : List (Result Nat (Nat × Nat))) (st : State Nat Nat),
      run countNet (initState countNet 1 0) calls = some (rs, st) ∧
      st.internals[0]? ≠ some (countNet.after (seen 0 0 calls)) :=
  ⟨[.act [(0, 5), (0, 6)]], [.acted [(5, 0), (6, 0)] 2], ⟨2, 0, 0, [0], [0], [1], 0⟩, by decide +kernel, by decide⟩

/-! ## C67 -/

/-- All interactions are at the start of an episode. -/
def AtStart (net : Net V S I A) (n : Nat) (st : State V I) : Prop :=
  st.length = List.replicate n 0 ∧ st.ret = List.replicate n 0 ∧ st.internals = List.replicate n net.initial

/-- After a reset all interactions are at the start of an episode, and the counters are as before. Missing: resets while an
episode is running. -/
theorem reset_partial (net : Net V S I A) (n : Nat) (vars : V) (calls : List (Call V S I)) (rs : List (Result I A))
    (st st' : State V I) (r : Result I A) (h : run net (initState net n vars) calls = some (rs, st))
    (hd : ∀ c ∈ calls, c.distinct)
    (hr : ∀ p, p < n → rewards p calls = [] ∧ seen p vars calls = [])
    (hx : exec net st .reset = some (r, st')) :
    AtStart net n st' ∧ st'.timesteps = st.timesteps ∧ st'.episodes = st.episodes ∧ st'.updates = st.updates := by
  simp only [exec, Option.some.injEq, Prod.mk.injEq] at hx
  rw [← hx.2]
  obtain ⟨s1, s2, s3⟩ := run_sizes net n vars calls rs st h
  refine ⟨⟨?_, ?_, ?_⟩, rfl, rfl, rfl⟩
  · rw [List.eq_replicate_iff]
    refine ⟨s1, fun b hb => ?_⟩
    obtain ⟨p, hp, e⟩ := List.getElem_of_mem hb
    have := (statistics net n vars calls rs st h p (by omega)).1
    rw [(hr p (by omega)).1, List.getElem?_eq_getElem hp, e] at this
    simpa using this
  · rw [List.eq_replicate_iff]
    refine ⟨s2, fun b hb => ?_⟩
    obtain ⟨p, hp, e⟩ := List.getElem_of_mem hb
    have := (statistics net n vars calls rs st h p (by omega)).2
    rw [(hr p (by omega)).1, List.getElem?_eq_getElem hp, e] at this
    simpa using this
  · rw [List.eq_replicate_iff]
    refine ⟨s3, fun b hb => ?_⟩
    obtain ⟨p, hp, e⟩ := List.getElem_of_mem hb
    have := internals_partial net n vars calls rs st h hd p (by omega)
    rw [(hr p (by omega)).2, List.getElem?_eq_getElem hp, e] at this
    simpa [Net.after] using this

example : rewards 0 ([.act [(0, 5)], .observe 0 [1] [2] none] : List (Call Nat Nat Nat)) = [] ∧
    seen 0 0 ([.act [(0, 5)], .observe 0 [1] [2] none] : List (Call Nat Nat Nat)) = [] := by decide

/-- A reset in the middle of an episode does not start a new one: length, return and internal state of the abandoned episode are
continued in the next one, although the agent accepts a new episode (`agent.py:332-352` clears the buffers and
`recorder.py:137-149` the waiting flags). -/
theorem reset_violation :
    ∃ (rs : List (Result Nat (Nat × Nat))) (st : State Nat Nat),
      run countNet (initState countNet 1 0) [.act [(0, 5)], .observe 0 [0] [2] none, .reset] = some (rs, st) ∧
      st.length = [1] ∧ st.ret = [2] ∧ st.internals = [1] :=
  ⟨[.acted [(5, 0)] 1, .observed false 0 0, .counters 1 0 0], ⟨1, 0, 0, [1], [2], [1], 0⟩, by decide +kernel, rfl, rfl, rfl⟩

end Verif.Props.Session
