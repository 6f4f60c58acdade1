import Verif.Schedule.Spec
import Verif.Returns.Facts

/-!
# Properties C11, C12, C13: generalized advantages and the update schedule
-/

namespace Verif.Props.Schedule

open Verif.Schedule

theorem discSum_cons (γ : Rat) (n : Nat) (r : Rat) (rs : List Rat) :
    Returns.discSum γ (n + 1) (r :: rs) = r + γ * Returns.discSum γ n rs := by
  have h := Returns.lamReturn_one γ (n + 1) ((r, 0) :: rs.map fun x => (x, 0)) (by simp)
  have h2 := Returns.lamReturn_one γ n (rs.map fun x => (x, 0)) (by simp)
  have e : (rs.map fun x => (x, (0 : Rat))).map Prod.fst = rs := by simp [Function.comp_def]
  rw [List.map_cons, e] at h
  rw [e] at h2
  rw [← h, ← h2, Returns.lamReturn]
  grind

theorem discSum_length (γ : Rat) (rs : List Rat) (n : Nat) (h : rs.length ≤ n) :
    Returns.discSum γ n rs = Returns.discSum γ rs.length rs := by
  unfold Returns.discSum
  rw [List.take_of_length_le h, List.take_of_length_le (Nat.le_refl _)]

/-- **C11.** The generalized advantage of every timestep is the `γλ`-discounted sum of the advantage terms of its own
episode only. -/
theorem gae_own_episode (γ l : Rat) (batch : List (Rat × Nat)) (i : Nat) (hi : i < batch.length) :
    (gae γ l batch)[i]? =
      some (Returns.discSum (γ * l) (ownEpisode (batch.drop i)).length (ownEpisode (batch.drop i))) := by
  induction batch generalizing i with
  | nil => simp at hi
  | cons x batch ih =>
    obtain ⟨a, t⟩ := x
    cases i with
    | zero =>
      show some _ = _
      rw [List.drop_zero, ownEpisode]
      by_cases ht : t = 0
      · simp only [ht, if_true]
        rw [List.length_cons, discSum_cons]
        congr 3
        cases batch with
        | nil => simp [Returns.scanRev, ownEpisode, Returns.discSum]
        | cons y batch =>
          have := ih 0 (by simp)
          simp only [gae, Returns.scanRev, List.getElem?_cons_zero, Option.some.injEq, List.drop_zero] at this
          simp only [Returns.scanRev, List.headD_cons]
          exact this
      · simp only [ht, if_false]
        rw [List.length_cons, discSum_cons]
        simp [Returns.discSum]
    | succ i =>
      simp at hi
      exact ih i hi

/-- **C11.** No leak in either direction: behind an episode end the batch can be cut. -/
theorem gae_no_leak (γ l : Rat) (A B : List (Rat × Nat)) (a : Rat) (t : Nat) (ht : t ≠ 0) :
    gae γ l (A ++ [(a, t)] ++ B) = gae γ l (A ++ [(a, t)]) ++ gae γ l B := by
  induction A with
  | nil =>
    simp [gae, Returns.scanRev, ht]
  | cons x A ih =>
    have e1 : ∀ L, gae γ l (x :: L) =
        (x.1 + γ * l * (if x.2 = 0 then (gae γ l L).headD 0 else 0)) :: gae γ l L := fun L => rfl
    simp only [List.cons_append] at ih ⊢
    rw [e1, e1, ih]
    have hne : gae γ l (A ++ [(a, t)]) ≠ [] := by
      cases A with
      | nil => simp [gae, Returns.scanRev]
      | cons y A => simp [gae, Returns.scanRev]
    cases hg : gae γ l (A ++ [(a, t)]) with
    | nil => exact absurd hg hne
    | cons y L => rfl

-- non-vacuity: two episodes and the beginning of a third in one batch
example : gae (1/2) 1 [(4, 0), (2, 1), (8, 2), (1, 0), (6, 0)] = [5, 2, 8, 4, 6] := by decide +kernel

/-- **C12.** With unit 'episodes' the model updates after exactly the episodes number `max(s,f)`, `max(s,f)+f`, ...
and at no other time. -/
theorem episode_schedule (o : Options) (ho : o.unit = .episodes) (hf : 1 ≤ o.freq) (calls : List Call) :
    run o (State.init o) calls = idealEpisodes (max o.start o.freq) o.freq 0 calls := by
  -- invariant: `last` is the largest update point not beyond the number of finished episodes
  have key : ∀ (calls : List Call) (s : State),
      (s.last = -(o.freq : Int) ∧ s.episodes < max o.start o.freq ∨
        ∃ k : Nat, s.last = (k * o.freq : Nat) ∧ max o.start o.freq + k * o.freq ≤ s.episodes ∧
          s.episodes < max o.start o.freq + (k + 1) * o.freq) →
      run o s calls = idealEpisodes (max o.start o.freq) o.freq s.episodes calls := by
    intro calls
    induction calls with
    | nil => intro s _; rfl
    | cons c calls ih =>
      intro s hs
      cases c with
      | act n => simp only [run, step, idealEpisodes]; rw [ih { s with timesteps := s.timesteps + n } hs]
      | observe t =>
        simp only [run, step, idealEpisodes, coreObserve, unitValue, effStart, ho]
        generalize hM : max o.start o.freq = M at hs ih
        have hM' : max (o.start : Int) (o.freq : Int) = (M : Int) := by omega
        rw [hM']
        cases t with
        | false =>
          have hno : ¬ ((s.episodes : Int) + (if false = true then 1 else 0) - (M : Int) ≥ s.last + o.freq) := by
            rcases hs with ⟨h1, h2⟩ | ⟨k, h1, h2, h3⟩
            · simp; omega
            · rw [Nat.add_mul, Nat.one_mul] at h3; rw [h1]; simp; omega
          rw [if_neg hno]
          simp only [Bool.false_eq_true, if_false, Nat.add_zero, Bool.false_and]
          rw [ih _ hs]
        | true =>
          simp only [if_true, Bool.true_and]
          rcases hs with ⟨h1, h2⟩ | ⟨k, h1, h2, h3⟩
          · by_cases heq : s.episodes + 1 = M
            · rw [if_pos (by omega)]
              have e1 : decide (M ≤ s.episodes + 1) = true := by simp; omega
              have e2 : decide ((s.episodes + 1 - M) % o.freq = 0) = true := by
                rw [heq]; simp
              rw [e1, e2, ih]
              · rfl
              · right
                refine ⟨0, ?_, ?_, ?_⟩ <;> simp <;> omega
            · rw [if_neg (by omega)]
              have e1 : decide (M ≤ s.episodes + 1) = false := by simp; omega
              rw [e1, ih]
              · rfl
              · left
                exact ⟨h1, by simp only; omega⟩
          · by_cases heq : s.episodes + 1 = M + (k + 1) * o.freq
            · rw [Nat.add_mul, Nat.one_mul] at h3 heq
              rw [if_pos (by rw [h1]; omega)]
              have e1 : decide (M ≤ s.episodes + 1) = true := by simp; omega
              have e2 : decide ((s.episodes + 1 - M) % o.freq = 0) = true := by
                rw [heq, Nat.add_sub_cancel_left]
                simp
              rw [e1, e2, ih]
              · rfl
              · right
                refine ⟨k + 1, ?_, ?_, ?_⟩
                · simp only; rw [Nat.add_mul, Nat.one_mul]; omega
                · simp only; rw [Nat.add_mul, Nat.one_mul]; omega
                · simp only; rw [Nat.add_mul, Nat.add_mul, Nat.one_mul]; omega
            · have h3' := h3
              rw [Nat.add_mul, Nat.one_mul] at h3' heq
              rw [if_neg (by rw [h1]; omega)]
              have e1 : decide ((s.episodes + 1 - M) % o.freq = 0) = false := by
                simp only [decide_eq_false_iff_not]
                have : s.episodes + 1 - M = (s.episodes + 1 - M - k * o.freq) + o.freq * k := by
                  rw [Nat.mul_comm o.freq k]; omega
                rw [this, Nat.add_mul_mod_self_left, Nat.mod_eq_of_lt (by omega)]
                omega
              rw [e1, Bool.and_false, ih]
              · right
                exact ⟨k, h1, by simp only; omega, by rw [Nat.add_mul, Nat.one_mul]; simp only; omega⟩
  exact key calls _ (Or.inl ⟨rfl, by simp only [State.init]; omega⟩)

-- non-vacuity: frequency 2, start 3: updates after episodes 3, 5, ...
example : run ⟨.episodes, 2, 3, 0, none, some 1⟩ (State.init ⟨.episodes, 2, 3, 0, none, some 1⟩)
    (List.replicate 6 (.observe true)) = [some false, some false, some true, some false, some true, some false] := by
  decide

/-- Correspondence between the code's counters and the ideal schedule with start `S`. -/
def Tracks (o : Options) (S : Nat) (s : State) (i : Ideal) : Prop :=
  s.timesteps = i.t ∧ s.episodes = i.e ∧
    (match i.prev with
      | none => s.last = -(o.freq : Int)
      | some p => s.last = (p : Int) - S ∧ S ≤ p ∧ p ≤ i.t)

/-- While the effective start is `S` whenever the ideal schedule is ready, and out of reach otherwise, the code
follows the ideal schedule. -/
theorem follows (o : Options) (ho : o.unit = .timesteps) (S : Nat) (ready : Nat → Bool) (ok : Nat → Prop)
    (hr : ∀ s : State, ok s.episodes → ready s.episodes = true → effStart o s = S)
    (hn : ∀ s : State, ok s.episodes → ready s.episodes = false → effStart o s > s.timesteps)
    (hmono : ∀ e, ready e = true → ready (e + 1) = true)
    (calls : List Call) (s : State) (i : Ideal) (hT : Tracks o S s i)
    (hp : i.prev ≠ none → ready i.e = true)
    (hok : ∀ n, n ≤ (calls.dropLast.countP fun c => decide (c = .observe true)) → ok (i.e + n)) :
    run o s calls = idealTimesteps S o.freq ready i calls := by
  induction calls generalizing s i with
  | nil => rfl
  | cons c calls ih =>
    obtain ⟨h1, h2, h3⟩ := hT
    have hdrop : ∀ n, n ≤ (calls.dropLast.countP fun c => decide (c = .observe true)) +
        (if calls = [] then 0 else if c = .observe true then 1 else 0) → ok (i.e + n) := by
      intro n hle
      apply hok
      cases calls with
      | nil => simpa using hle
      | cons d calls =>
        rw [List.dropLast_cons₂, List.countP_cons]
        simpa using hle
    cases c with
    | act n =>
      simp only [run, step, idealTimesteps]
      rw [ih]
      · refine ⟨by simp only; omega, h2, ?_⟩
        cases hprev : i.prev with
        | none => rw [hprev] at h3; exact h3
        | some p => rw [hprev] at h3; exact ⟨h3.1, h3.2.1, by simp only; omega⟩
      · exact hp
      · intro m hm
        exact hdrop m (by omega)
    | observe t =>
      have hok0 : ok s.episodes := by rw [h2]; simpa using hok 0 (Nat.zero_le _)
      have hdec : decide (unitValue o s t ≥ s.last + o.freq) =
          (ready i.e && decide (S ≤ i.t) && due o.freq i.prev i.t) := by
        simp only [unitValue, ho]
        cases hrd : ready i.e with
        | false =>
          have := hn s hok0 (by rw [h2]; exact hrd)
          have hpn : i.prev = none := by
            cases hprev : i.prev with
            | none => rfl
            | some p => have := hp (by rw [hprev]; simp); rw [this] at hrd; simp at hrd
          rw [hpn] at h3
          simp only [Bool.false_and, decide_eq_false_iff_not]
          simp only at h3
          omega
        | true =>
          rw [hr s hok0 (by rw [h2]; exact hrd)]
          cases hprev : i.prev with
          | none =>
            rw [hprev] at h3
            simp only at h3
            simp only [due, Bool.true_and, Bool.and_true, decide_eq_decide]
            omega
          | some p =>
            rw [hprev] at h3
            simp only at h3
            rw [due, Bool.true_and, ← Bool.decide_and, decide_eq_decide]
            omega
      simp only [run, step, idealTimesteps, coreObserve]
      rw [← hdec]
      by_cases hup : unitValue o s t ≥ s.last + o.freq
      · rw [if_pos hup, decide_eq_true hup]
        rw [decide_eq_true hup] at hdec
        have hd := hdec.symm
        rw [Bool.and_eq_true, Bool.and_eq_true] at hd
        simp only [if_true]
        congr 1
        by_cases hnil : calls = []
        · subst hnil; rfl
        apply ih
        · refine ⟨h1, ?_, ?_, ?_, ?_⟩
          · simp only; cases t <;> simp [h2]
          · simp only [unitValue, ho]
            rw [hr s hok0 (by rw [h2]; exact hd.1.1), h1]
          · exact of_decide_eq_true hd.1.2
          · exact Nat.le_refl _
        · intro _
          cases t
          · exact hd.1.1
          · exact hmono _ hd.1.1
        · intro n hle
          cases t with
          | false => exact hdrop n (by omega)
          | true =>
            have := hdrop (n + 1) (by rw [if_neg hnil]; simp; omega)
            simpa [Nat.add_assoc, Nat.add_comm 1 n] using this
      · rw [if_neg hup, decide_eq_false hup]
        simp only [Bool.false_eq_true, if_false]
        congr 1
        by_cases hnil : calls = []
        · subst hnil; rfl
        apply ih
        · refine ⟨h1, ?_, h3⟩
          simp only; cases t <;> simp [h2]
        · intro hne
          cases t
          · exact hp hne
          · exact hmono _ (hp hne)
        · intro n hle
          cases t with
          | false => exact hdrop n (by omega)
          | true =>
            have := hdrop (n + 1) (by rw [if_neg hnil]; simp; omega)
            simpa [Nat.add_assoc, Nat.add_comm 1 n] using this

/-- **C13** for `reward_horizon = 'episode'`: once an episode is complete, the model updates as soon as the start
`max(start, frequency + past horizon, buffer_observe)` is reached and `frequency` timesteps have passed since the
previous update; never earlier, never later. -/
theorem timestep_schedule_episode_horizon (o : Options) (ho : o.unit = .timesteps) (hh : o.horizon = none)
    (calls : List Call) :
    run o (State.init o) calls =
      idealTimesteps (max (max o.start (o.freq + o.past)) (o.bo.getD 0)) o.freq (fun e => decide (0 < e))
        { t := 0, e := 0, prev := none } calls := by
  apply follows o ho _ _ (fun _ => True)
  · intro s _ hs
    simp only [decide_eq_true_eq] at hs
    cases hb : o.bo <;> simp only [effStart, ho, hh, hb, if_pos hs, Option.getD] <;> omega
  · intro s _ hs
    simp only [decide_eq_false_iff_not] at hs
    cases hb : o.bo <;> simp only [effStart, ho, hh, hb, if_neg hs] <;> omega
  · simp
  · exact ⟨rfl, rfl, rfl⟩
  · simp
  · simp

/-- **C13** for a finite horizon and `buffer_observe = 'episode'`, all but the configured start: updates are exactly
`frequency` apart or as soon as possible after the first episode, but the effective start is 0. -/
theorem timestep_schedule_episode_buffer_partial (o : Options) (ho : o.unit = .timesteps) (h : Nat)
    (hh : o.horizon = some h) (hb : o.bo = none) (calls : List Call) :
    run o (State.init o) calls =
      idealTimesteps 0 o.freq (fun e => decide (0 < e)) { t := 0, e := 0, prev := none } calls := by
  apply follows o ho _ _ (fun _ => True)
  · intro s _ hs
    simp only [decide_eq_true_eq] at hs
    simp only [effStart, ho, hh, hb, if_pos hs]
    omega
  · intro s _ hs
    simp only [decide_eq_false_iff_not] at hs
    simp only [effStart, ho, hh, hb, if_neg hs]
    omega
  · simp
  · exact ⟨rfl, rfl, rfl⟩
  · simp
  · simp

/-- **C13** for a finite horizon, restricted to histories up to and including the end of the first episode: the start
is respected (it is even delayed by twice the horizon) and updates are `frequency` apart.
Missing: what follows the first episode, see the two violations below. -/
theorem timestep_schedule_first_episode_partial (o : Options) (ho : o.unit = .timesteps) (h b : Nat)
    (hh : o.horizon = some h) (hb : o.bo = some b) (calls : List Call)
    (hfirst : Call.observe true ∉ calls.dropLast) :
    run o (State.init o) calls =
      idealTimesteps (max (max o.start (o.freq + o.past) + 2 * h) b) o.freq (fun _ => true)
        { t := 0, e := 0, prev := none } calls := by
  apply follows o ho _ _ (fun e => e = 0)
  · intro s hs _
    simp only [effStart, ho, hh, hb, hs, Nat.lt_irrefl, if_false]
    omega
  · simp
  · simp
  · exact ⟨rfl, rfl, rfl⟩
  · simp
  · intro n hn
    have : (calls.dropLast.countP fun c => decide (c = .observe true)) = 0 := by
      rw [List.countP_eq_zero]
      intro c hc
      simp only [decide_eq_true_eq]
      intro h'
      exact hfirst (h' ▸ hc)
    show 0 + n = 0
    omega

/-- **C13** for a finite horizon, from the first update after the end of the first episode on (at timestep `t0`): later
updates come as soon as `frequency` timesteps have passed.
Missing: the first update of this phase, see the violations. -/
theorem timestep_schedule_later_partial (o : Options) (ho : o.unit = .timesteps) (h b : Nat)
    (hh : o.horizon = some h) (hb : o.bo = some b) (s s' : State) (t : Bool) (he : 0 < s.episodes)
    (hl : -(o.freq : Int) ≤ s.last) (hup : step o s (.observe t) = (s', some true)) (calls : List Call) :
    run o s' calls =
      idealTimesteps b o.freq (fun _ => true) { t := s.timesteps, e := s'.episodes, prev := some s.timesteps } calls := by
  have heff : ∀ s : State, 0 < s.episodes → effStart o s = b := by
    intro s he
    simp only [effStart, ho, hh, hb, if_pos he]
    omega
  simp only [step, coreObserve] at hup
  by_cases hu : unitValue o s t ≥ s.last + o.freq
  · rw [if_pos hu] at hup
    simp only [unitValue, ho, heff s he, Prod.mk.injEq, and_true] at hup hu
    subst hup
    apply follows o ho _ _ (fun e => 0 < e)
    · intro s hs _
      exact heff s hs
    · simp
    · simp
    · refine ⟨rfl, rfl, rfl, by omega, Nat.le_refl _⟩
    · simp
    · intro n _
      simp only
      omega
  · rw [if_neg hu] at hup
    simp at hup

/-- `last_update` never falls below its initial value, so that the theorem above applies to every reachable state, and
no update ever takes place before the effective start. -/
theorem no_update_before_effective_start (o : Options) (s s' : State) (c : Call) (u : Option Bool)
    (hl : -(o.freq : Int) ≤ s.last) (hs : step o s c = (s', u)) :
    -(o.freq : Int) ≤ s'.last ∧ (u = some true → o.unit = .timesteps → effStart o s ≤ s.timesteps) := by
  cases c with
  | act n => simp only [step, Prod.mk.injEq] at hs; obtain ⟨rfl, rfl⟩ := hs; exact ⟨hl, by simp⟩
  | observe t =>
    simp only [step, coreObserve] at hs
    by_cases hu : unitValue o s t ≥ s.last + o.freq
    · rw [if_pos hu] at hs
      simp only [Prod.mk.injEq] at hs
      obtain ⟨rfl, rfl⟩ := hs
      refine ⟨by simp only; omega, ?_⟩
      intro _ ho
      simp only [unitValue, ho] at hu
      omega
    · rw [if_neg hu] at hs
      simp only [Prod.mk.injEq] at hs
      obtain ⟨rfl, rfl⟩ := hs
      exact ⟨hl, by simp⟩

/-- Decisions of observing after every act. -/
def everyStep : List Bool → List Call
  | [] => []
  | t :: ts => .act 1 :: .observe t :: everyStep ts

/-- **C13 fails (configured start).** Finite horizon 1, frequency 1, `start = 100`: as soon as the first episode has
ended (here at timestep 1), the very next timestep updates. -/
theorem start_ignored_violation :
    run ⟨.timesteps, 1, 100, 0, some 1, some 1⟩ (State.init ⟨.timesteps, 1, 100, 0, some 1, some 1⟩)
      (everyStep [true, false]) = [none, some false, none, some true] := by
  decide

/-- **C13 fails (distance).** Frequency 10, horizon 1: after the update at timestep 12 the episode ends at timestep 13
and timestep 14 updates again. -/
theorem frequency_violation :
    run ⟨.timesteps, 10, 0, 0, some 1, some 1⟩ (State.init ⟨.timesteps, 10, 0, 0, some 1, some 1⟩)
      (everyStep (List.replicate 12 false ++ [true, false])) =
        (List.replicate 11 [none, some false]).flatten ++ [none, some true, none, some false, none, some true] := by
  decide

-- non-vacuity of the positive theorems
example : run ⟨.timesteps, 2, 3, 0, none, some 1⟩ (State.init ⟨.timesteps, 2, 3, 0, none, some 1⟩)
    (everyStep [false, true, false, false, false]) =
      [none, some false, none, some false, none, some true, none, some false, none, some true] := by decide

example : run ⟨.timesteps, 2, 1, 0, some 1, some 1⟩ (State.init ⟨.timesteps, 2, 1, 0, some 1, some 1⟩)
    (everyStep [false, false, false, false, false, true]) =
      [none, some false, none, some false, none, some false, none, some true, none, some false, none, some true] := by
  decide

end Verif.Props.Schedule
