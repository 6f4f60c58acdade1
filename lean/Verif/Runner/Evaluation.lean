import Verif.Runner.Trace
import Verif.Runner.Alone

/-! # Runs with only an evaluation environment; every answer is dealt with -/

namespace Verif.Runner

variable {c : Config} {o : Oracle}

def Event.isReset : Event → Bool
  | .reset _ => true
  | _ => false

/-! ## Alone -/

/-- Settings of a run with only an evaluation environment. -/
structure Alone (c : Config) : Prop where
  envs : c.envs = 1
  evaluation : c.evaluation = true
  batch : c.batch = false
  sync : c.syncEpisodes = false

/-- What an answer of the only environment does. -/
inductive AloneStep (c : Config) (o : Oracle) (s s' : State) : Prop where
  | act (terms : s'.terms 0 ≤ 0) (episodes : s'.episodes = s.episodes) (resets : s'.log.countP Event.isReset = s.log.countP Event.isReset)
      (steps : s'.steps 0 = s.steps 0 + 1) (why : s.pending 0 = true ∨ o.code s.log 0 (s.steps 0) = 0)
  | finish (terms : 0 < s'.terms 0) (episodes : s'.episodes = s.episodes + 1) (resets : s'.log.countP Event.isReset = s.log.countP Event.isReset)
      (steps : s'.steps 0 = 0)
  | restart (terms : s'.terms 0 ≤ 0) (episodes : s'.episodes = s.episodes + 1) (resets : s'.log.countP Event.isReset = s.log.countP Event.isReset + 1)
      (steps : s'.steps 0 = 0) (below : reached s'.episodes c.numEpisodes = false)

theorem alone_act (ha : Alone c) {s : State} (ht : s.terms 0 ≤ 0) (why : s.pending 0 = true ∨ o.code s.log 0 (s.steps 0) = 0) :
    AloneStep c o s (handleActEval c o 0 s) := by
  have hf := countTimestep_frame (c := c) (o := o) 0 (execute 0 { s with log := .evalAct 0 :: s.log })
  refine .act (by rw [handleActEval_terms]; exact ht) ?_ ?_ ?_ why
  · unfold handleActEval
    simp only [ha.batch, ha.evaluation, ha.envs, decide_true, Bool.and_self, if_true, Bool.false_eq_true, if_false]
    rw [hf.2.2.2.2.2.1]; rfl
  · rw [handleActEval_log, ha.batch]; simp [Event.isReset]
  · unfold handleActEval
    simp only [ha.batch, ha.evaluation, ha.envs, decide_true, Bool.and_self, if_true, Bool.false_eq_true, if_false]
    rw [hf.2.2.2.1]
    exact set_same s.steps 0 _

theorem alone_end (ha : Alone c) {s : State} (ht : 0 < s.terms 0) : AloneStep c o s (handleTerminalEval c o 0 s) := by
  obtain ⟨-, h2, -, -, h5, -, -, h8⟩ := countEpisode_frame (c := c) (o := o) s
  have hb : (countEpisode c o s).terminate = 0 → reached (countEpisode c o s).episodes c.numEpisodes = false := by
    rw [h8]
    intro h
    unfold countEpisode at h
    dsimp only at h
    split at h
    case isTrue => exact absurd h (show (1 : Nat) ≠ 0 by decide)
    case isFalse hn =>
      cases hr : reached (s.episodes + 1) c.numEpisodes
      · rfl
      · exact absurd ⟨h, by rw [hr]; simp⟩ hn
  unfold handleTerminalEval
  simp only [ha.evaluation, ha.envs, decide_true, Bool.and_self, if_true]
  unfold maybeReset
  dsimp only
  split
  case isTrue h =>
    refine .restart (by show set (countEpisode c o s).terms 0 0 0 ≤ 0; rw [set_same]; decide) h8 ?_ ?_ (hb h.1)
    · show List.countP Event.isReset (.reset 0 :: (countEpisode c o s).log) = _; rw [h5]; exact List.countP_cons_of_pos rfl
    · exact set_same (countEpisode c o s).steps 0 0
  case isFalse h => exact .finish (by rw [h2]; exact ht) h8 (by rw [h5]) (set_same (countEpisode c o s).steps 0 0)

theorem alone_step (ha : Alone c) (i : Nat) (s : State) (hp : s.prev 0 ≤ 0) (hr : (c.syncTimesteps || o.ready i 0) = true) :
    AloneStep c o s (visit c o i s 0) := by
  have he : c.isEval 0 = true := by simp [Config.isEval, ha.evaluation, ha.envs]
  unfold visit
  rw [if_neg (by omega), if_neg (by rw [ha.batch]; decide), if_pos hr]
  have key : ∀ s' : State, s'.terms 0 = reply o 0 s' → AloneStep c o s' (handle c o 0 s') := by
    intro s' ht
    unfold handle
    rw [if_pos he]
    unfold reply at ht
    split
    case isTrue h =>
      refine alone_act ha (by omega) (.inl ?_)
      cases hp : s'.pending 0
      · rw [hp] at ht; simp only [Bool.false_eq_true, if_false] at ht; omega
      · rfl
    case isFalse h =>
      have hp : s'.pending 0 = false := by
        cases hp : s'.pending 0
        · rfl
        · rw [hp] at ht; exact absurd ht h
      rw [hp] at ht
      simp only [Bool.false_eq_true, if_false] at ht
      split
      · exact alone_act ha (by omega) (.inr (by omega))
      · exact alone_end ha (by omega)
  have := key { s with terms := set s.terms 0 (reply o 0 s) } (set_same s.terms 0 _)
  cases this with
  | act h1 h2 h3 h4 h5 => exact .act h1 h2 h3 h4 h5
  | finish h1 h2 h3 h4 => exact .finish h1 h2 h3 h4
  | restart h1 h2 h3 h4 h5 => exact .restart h1 h2 h3 h4 h5

theorem alone_iteration (ha : Alone c) (i : Nat) (s : State) : iteration c o i s = { visit c o i s 0 with prev := (visit c o i s 0).terms } := by
  unfold iteration jointly
  rw [if_neg (by rw [ha.batch]; decide), ha.envs]
  show syncReset c { visit c o i s 0 with prev := (visit c o i s 0).terms } = _
  rw [syncReset_eq, if_neg (by rw [ha.sync]; simp)]

/-- One reset for each episode. -/
theorem alone_resets (ha : Alone c) (k : Nat) :
    (run c o k).log.countP Event.isReset = (run c o k).episodes + (if (run c o k).prev 0 ≤ 0 then 1 else 0) := by
  induction k with
  | zero =>
    unfold run init
    rw [ha.envs]
    rfl
  | succ k ih =>
    unfold run
    split
    case isFalse => exact ih
    case isTrue hc =>
      obtain ⟨n, hn, hp⟩ := hc
      have : n = 0 := by have := ha.envs; omega
      subst this
      rw [if_pos hp] at ih
      rw [alone_iteration ha]
      dsimp only
      cases hr : c.syncTimesteps || o.ready k 0
      · unfold visit
        rw [if_neg (by omega), if_neg (by rw [ha.batch]; decide), if_neg (by rw [hr]; decide)]
        rw [if_pos (show set (run c o k).terms 0 ((run c o k).prev 0) 0 ≤ 0 by rw [set_same]; exact hp)]
        exact ih
      · cases alone_step (o := o) ha k _ hp hr with
        | act h1 h2 h3 => rw [if_pos h1, h2, h3]; exact ih
        | finish h1 h2 h3 => rw [if_neg (by omega), h2, h3]; exact ih
        | restart h1 h2 h3 => rw [if_pos h1, h2, h3]; omega

/-- Every iteration is a timestep or an end. -/
theorem alone_progress (ha : Alone c) {N L : Nat} (hN : c.numEpisodes = some N) (h0 : 0 < N) (hL : 0 < L)
    (hcode : ∀ l m, L ≤ m → o.code l 0 m ≠ 0) (hready : ∀ i, (c.syncTimesteps || o.ready i 0) = true) (k : Nat)
    (hc : continues c (run c o k)) :
    (run c o k).episodes < N ∧ (run c o k).steps 0 ≤ L ∧ k ≤ (run c o k).episodes * (L + 1) + (run c o k).steps 0 := by
  induction k with
  | zero =>
    obtain ⟨-, -, -, h4, -, h6, -⟩ := init_spec (c := c)
    unfold run
    rw [h4, h6]
    exact ⟨h0, Nat.zero_le _, Nat.zero_le _⟩
  | succ k ih =>
    by_cases hk : continues c (run c o k)
    · obtain ⟨i1, i2, i3⟩ := ih hk
      have hfit := (traced_run (o := o) ha.batch k).2 0 (by rw [ha.envs]; decide)
      have hrun : run c o (k + 1) = iteration c o k (run c o k) := by rw [run, if_pos hk]
      rw [hrun] at hc ⊢
      obtain ⟨n, hn, hp⟩ := hk
      have : n = 0 := by have := ha.envs; omega
      subst this
      obtain ⟨n, hn', hp'⟩ := hc
      have : n = 0 := by have := ha.envs; omega
      subst this
      rw [alone_iteration ha] at hp' ⊢
      dsimp only at hp' ⊢
      have hstep := alone_step (o := o) ha k _ hp (hready k)
      generalize run c o k = s at *
      cases hstep with
      | act h1 h2 h3 h4 h5 =>
        have hlt : s.steps 0 < L := by
          rcases h5 with h5 | h5
          · obtain ⟨-, h | h | h⟩ := hfit
            · omega
            · omega
            · rw [h5] at h; exact absurd h.2.1 (by decide)
          · have := hcode s.log (s.steps 0)
            by_cases hlt : s.steps 0 < L
            · exact hlt
            · exact absurd h5 (this (by omega))
        rw [h2, h4]
        exact ⟨i1, by omega, by omega⟩
      | finish h1 => omega
      | restart h1 h2 h3 h4 h5 =>
        rw [hN] at h5
        simp only [reached, decide_eq_false_iff_not] at h5
        rw [h4]
        refine ⟨by omega, by omega, ?_⟩
        rw [h2, Nat.add_mul]
        omega
    · rw [run, if_neg hk] at hc
      exact absurd hc hk

/-! ## Every answer is dealt with -/

theorem eventsOf_adds {m : Nat} {l l' : List Event} (h : Adds m l l') (n : Nat) :
    (l.countP fun e => decide (e.env = n)) ≤ l'.countP fun e => decide (e.env = n) := by
  obtain ⟨a, rfl, -⟩ := h
  rw [List.countP_append]
  omega

theorem handle_moves (hb : c.batch = false) (n : Nat) (s : State) (ht : -1 ≤ s.terms n) :
    0 < (handle c o n s).terms n ∨ (s.log.countP fun e => decide (e.env = n)) < (handle c o n s).log.countP fun e => decide (e.env = n) := by
  have hact : ∀ s : State, (s.log.countP fun e => decide (e.env = n)) < (handleAct c o n s).log.countP fun e => decide (e.env = n) := by
    intro s
    unfold handleAct
    dsimp only
    rw [countTimestep_log, hb]
    simp [execute, Event.env]
    omega
  have heval : ∀ s : State, (s.log.countP fun e => decide (e.env = n)) < (handleActEval c o n s).log.countP fun e => decide (e.env = n) := by
    intro s
    rw [handleActEval_log, hb]
    simp [Event.env]
    omega
  have hreset : ∀ (code : Int) (s : State), 0 < s.terms n → 0 < (maybeReset c code n s).terms n ∨
      (s.log.countP fun e => decide (e.env = n)) < (maybeReset c code n s).log.countP fun e => decide (e.env = n) := by
    intro code s h
    unfold maybeReset
    split
    · right; simp [startReset, Event.env]
    · exact .inl h
  unfold handle
  dsimp only
  split
  · split
    · exact .inr (heval s)
    · split
      · exact .inr (heval s)
      · unfold handleTerminalEval
        dsimp only
        split
        · obtain ⟨-, h2, -, -, h5, -⟩ := countEpisode_frame (c := c) (o := o) s
          have := hreset 0 { countEpisode c o s with steps := set (countEpisode c o s).steps n 0 } (by dsimp only; rw [h2]; omega)
          rcases this with h | h
          · exact .inl h
          · right
            refine Nat.lt_of_le_of_lt (Nat.le_of_eq ?_) h
            dsimp only
            rw [h5]
        · exact hreset 0 { s with steps := set s.steps n 0 } (by dsimp only; omega)
  · split
    · exact .inr (hact s)
    · right
      have hobs : (s.log.countP fun e => decide (e.env = n)) < (handleObserve c o n s).log.countP fun e => decide (e.env = n) := by
        have h1 : (cutOff n s).log = s.log := by unfold cutOff; split <;> rfl
        unfold handleObserve tell
        simp only [hb, Bool.false_eq_true, if_false]
        split <;> simp [Event.env, h1]
      split
      · have := hact (handleObserve c o n s); omega
      · have := eventsOf_adds (handleTerminal_adds (c := c) (o := o) n (handleObserve c o n s)) n; omega

theorem resetAll_events (l : List Nat) (s : State) (n : Nat) :
    (s.log.countP fun e => decide (e.env = n)) + (if n ∈ l then 1 else 0) ≤ (resetAll l s).log.countP fun e => decide (e.env = n) := by
  induction l generalizing s with
  | nil => simp [resetAll]
  | cons m l ih =>
    have := ih (startReset m { s with prev := set s.prev m (-1) })
    change _ ≤ (resetAll l (startReset m { s with prev := set s.prev m (-1) })).log.countP _
    simp only [startReset] at this ⊢
    rw [List.countP_cons] at this
    by_cases hm : m = n
    · subst hm
      simp [Event.env] at this ⊢
      omega
    · have h2 : (n = m) = False := by simp; exact fun h => hm h.symm
      simp only [Event.env, hm, List.mem_cons, h2, false_or, decide_false, Bool.false_eq_true, if_false] at this ⊢
      omega

theorem iteration_moves (hb : c.batch = false) {n : Nat} (hn : n < c.envs) (i : Nat) (s : State) (hp : s.prev n ≤ 0)
    (hr : (c.syncTimesteps || o.ready i n) = true) :
    0 < (iteration c o i s).prev n ∨ (s.log.countP fun e => decide (e.env = n)) < (iteration c o i s).log.countP fun e => decide (e.env = n) := by
  have hf := range_fold_ind (fun k (s' : State) => s'.prev = s.prev ∧ (s.log.countP fun e => decide (e.env = n)) ≤ (s'.log.countP fun e => decide (e.env = n)) ∧
      (n < k → 0 < s'.terms n ∨ (s.log.countP fun e => decide (e.env = n)) < s'.log.countP fun e => decide (e.env = n))) (visit c o i) c.envs s
    ⟨rfl, Nat.le_refl _, fun h => by omega⟩ (fun k s' hk ⟨h1, h2, h3⟩ => by
      have ha := eventsOf_adds (visit_adds (c := c) (o := o) i k s') n
      refine ⟨(visit_prev k i s').trans h1, by omega, fun hlt => ?_⟩
      by_cases hnk : n = k
      · subst hnk
        unfold visit
        rw [if_neg (by rw [h1]; omega), if_neg (by rw [hb]; decide), if_pos hr]
        have hge : -1 ≤ reply o n s' := by unfold reply; split <;> omega
        have := handle_moves (c := c) (o := o) hb n { s' with terms := set s'.terms n (reply o n s') } (by dsimp only; rw [set_same]; exact hge)
        dsimp only at this
        omega
      · rw [(visit_same (c := c) (o := o) hnk i s').terms]
        have := h3 (by omega)
        omega)
  unfold iteration
  have hj : jointly c o s = s := by unfold jointly; rw [if_neg (by rw [hb]; decide)]
  rw [hj]
  dsimp only
  generalize (List.range c.envs).foldl (visit c o i) s = s1 at hf
  rw [syncReset_eq]
  split
  case isFalse => exact hf.2.2 hn
  case isTrue =>
    have h1 := resetAll_events (toReset c { s1 with prev := s1.terms }) { s1 with prev := s1.terms } n
    have h2 := (resetAll_spec (toReset c { s1 with prev := s1.terms }) { s1 with prev := s1.terms }).1 n
    have h3 := hf.2.2 hn
    rw [h2]
    dsimp only at h1 ⊢
    split
    case isTrue h => rw [if_pos h] at h1; right; omega
    case isFalse h =>
      rcases h3 with h3 | h3
      · exact .inl h3
      · right; omega

end Verif.Runner
