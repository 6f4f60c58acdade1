import Verif.Runner.Ends

/-! # The evaluation environment: alone, and never cut off -/

namespace Verif.Runner

variable {c : Config} {o : Oracle}

/-! ## Never cut off -/

theorem countTimestep_terms (n : Nat) (s : State) : (countTimestep c o n s).terms = s.terms := (countTimestep_frame n s).2.1

theorem handleActEval_terms (n : Nat) (s : State) : (handleActEval c o n s).terms = s.terms := by
  unfold handleActEval
  dsimp only
  split <;> split <;> first | rw [countTimestep_terms]; rfl | rfl

/-- An evaluation environment that never ends its episode keeps the loop going. -/
theorem eval_goes_on (he : c.evaluation = true) (h0 : 0 < c.envs) (hcode : ∀ l m, o.code l (c.envs - 1) m = 0) (i : Nat) (s : State)
    (hp : s.prev (c.envs - 1) ≤ 0) : (iteration c o i s).prev (c.envs - 1) ≤ 0 := by
  have heval : c.isEval (c.envs - 1) = true := by simp [Config.isEval, he]
  have hreply : ∀ s, reply o (c.envs - 1) s = -1 ∨ reply o (c.envs - 1) s = 0 := by
    intro s
    unfold reply
    split
    · exact .inl rfl
    · right; rw [hcode]; rfl
  have hj : (jointly c o s).prev = s.prev ∧ (c.batch = true → (jointly c o s).terms (c.envs - 1) = -1 ∨ (jointly c o s).terms (c.envs - 1) = 0) := by
    unfold jointly
    split
    case isFalse hb => exact ⟨rfl, fun h => absurd h hb⟩
    case isTrue =>
      have h1 : ∀ t, (actJoint c t).prev = t.prev ∧ (actJoint c t).terms = t.terms := by
        intro t; unfold actJoint; dsimp only; split <;> exact ⟨rfl, rfl⟩
      have h2 : ∀ t, (observeJoint c o t).prev = t.prev ∧ (observeJoint c o t).terms = t.terms := by
        intro t; unfold observeJoint; dsimp only; split <;> exact ⟨rfl, rfl⟩
      rw [(h1 _).1, (h1 _).2, (h2 _).1, (h2 _).2]
      refine ⟨rfl, fun _ => ?_⟩
      have : (receiveAll o s).terms (c.envs - 1) = reply o (c.envs - 1) s := if_pos hp
      rw [this]
      exact hreply s
  have hfold := range_fold_ind (fun k s' => s'.prev = s.prev ∧ (c.batch = true → s'.terms (c.envs - 1) = -1 ∨ s'.terms (c.envs - 1) = 0) ∧
      (c.envs ≤ k → s'.terms (c.envs - 1) ≤ 0))
    (visit c o i) c.envs (jointly c o s) ⟨hj.1, hj.2, fun h => by omega⟩ (by
      intro k s' hk ⟨h1, h2, _⟩
      by_cases hlast : c.envs - 1 = k
      · have hb : c.batch = true → (visit c o i s' k).terms (c.envs - 1) = s'.terms (c.envs - 1) := by
          intro hb
          have ht := h2 hb
          unfold visit
          rw [if_neg (by rw [h1, ← hlast]; omega), if_pos hb, ← hlast]
          unfold handle
          rw [if_pos heval]
          rcases ht with ht | ht
          · rw [if_pos ht, handleActEval_terms]
          · rw [if_neg (by omega), if_pos ht, handleActEval_terms]
        refine ⟨(visit_prev k i s').trans h1, fun h => by rw [hb h]; exact h2 h, fun _ => ?_⟩
        by_cases hbt : c.batch = true
        · rw [hb hbt]; have := h2 hbt; omega
        · unfold visit
          rw [if_neg (by rw [h1, ← hlast]; omega), if_neg hbt]
          rw [hlast] at hreply
          rw [hlast]
          split
          · have h3 : ∀ t : State, t.terms k = -1 ∨ t.terms k = 0 → (handle c o k t).terms k ≤ 0 := by
              intro t ht
              unfold handle
              rw [if_pos (by rw [← hlast]; exact heval)]
              rcases ht with ht | ht
              · rw [if_pos ht, handleActEval_terms]; omega
              · rw [if_neg (by omega), if_pos ht, handleActEval_terms]; omega
            exact h3 _ (by dsimp only; rw [set_same]; exact hreply s')
          · dsimp only; rw [set_same, h1, ← hlast]; exact hp
      · have hs := visit_same (c := c) (o := o) hlast i s'
        exact ⟨hs.prev.trans h1, fun h => by rw [hs.terms]; exact h2 h, fun h => by omega⟩)
  unfold iteration
  dsimp only
  generalize (List.range c.envs).foldl (visit c o i) (jointly c o s) = s1 at hfold
  have hle := hfold.2.2 (Nat.le_refl _)
  rw [syncReset_eq]
  split
  case isTrue h => have := h.2 (c.envs - 1) (by omega); dsimp only at this; omega
  case isFalse => exact hle

/-! ## Alone -/

/-- The state of a run that only evaluates. -/
structure AloneOk (N : Nat) (t : Int) (s : State) : Prop where
  going : t ≤ 0 → s.terminate = 0 ∧ s.episodes < N
  over : 0 < t → s.episodes = N

theorem alone_visit (hc1 : c.envs = 1) (hce : c.evaluation = true) (hb : c.batch = false) (hs : c.syncEpisodes = false)
    {N : Nat} (hN : c.numEpisodes = some N) (hT : c.numTimesteps = none) (hcb : ∀ l, o.callback l = true) (i : Nat) (s : State)
    (h : AloneOk N (s.prev 0) s) : AloneOk N ((visit c o i s 0).terms 0) (visit c o i s 0) := by
  have key : (c.evaluation && decide (c.envs = 1)) = true := by simp [hce, hc1]
  have he : c.isEval 0 = true := by simp [Config.isEval, hce, hc1]
  have hact : ∀ s : State, s.terminate = 0 ∧ s.episodes < N → s.terms 0 ≤ 0 → AloneOk N ((handleActEval c o 0 s).terms 0) (handleActEval c o 0 s) := by
    intro s hg ht
    rw [handleActEval_terms]
    unfold handleActEval
    simp only [key, hb, Bool.false_eq_true, if_false, if_true]
    unfold countTimestep
    simp only [hT, reached, hcb, Bool.not_true, Bool.and_false, Bool.or_false, Bool.false_eq_true, if_false]
    exact ⟨fun _ => hg, fun h => by omega⟩
  have hend : ∀ s : State, s.terminate = 0 ∧ s.episodes < N → 0 < s.terms 0 → AloneOk N ((handleTerminalEval c o 0 s).terms 0) (handleTerminalEval c o 0 s) := by
    intro s hg ht
    have hce : (countEpisode c o s).terminate = (if N ≤ s.episodes + 1 then 1 else 0) := by
      unfold countEpisode
      simp only [hN, reached, hcb, Bool.not_true, Bool.and_false, Bool.false_or, decide_eq_true_eq, hg.1, true_and]
      split <;> first | rfl | exact hg.1
    obtain ⟨-, h2, -, -, -, -, -, h8⟩ := countEpisode_frame (c := c) (o := o) s
    unfold handleTerminalEval
    simp only [key, if_true]
    unfold maybeReset
    dsimp only
    by_cases hr : N ≤ s.episodes + 1
    · rw [if_pos hr] at hce
      rw [if_neg (by rw [hce]; simp)]
      refine ⟨fun h => ?_, fun _ => ?_⟩
      · dsimp only at h; rw [h2] at h; omega
      · show (countEpisode c o s).episodes = N; omega
    · rw [if_neg hr] at hce
      rw [if_pos ⟨hce, hs⟩]
      refine ⟨fun _ => ⟨hce, ?_⟩, fun h => ?_⟩
      · show (countEpisode c o s).episodes < N; omega
      · dsimp only at h; rw [set_same] at h; omega
  unfold visit
  by_cases hp : s.prev 0 > 0
  · rw [if_pos hp]
    dsimp only
    rw [set_same]
    exact ⟨fun h => by omega, h.over⟩
  · rw [if_neg hp, if_neg (by rw [hb]; decide)]
    have hg := h.going (by omega)
    split
    · generalize hr : reply o 0 s = r
      have : ∀ t : State, t.terms 0 = r → t.terminate = 0 ∧ t.episodes < N → AloneOk N ((handle c o 0 t).terms 0) (handle c o 0 t) := by
        intro t ht hg
        unfold handle
        rw [if_pos he]
        split
        · exact hact t hg (by omega)
        · split
          · exact hact t hg (by omega)
          · refine hend t hg ?_
            have : -1 ≤ r := by rw [← hr]; unfold reply; split <;> omega
            omega
      exact this _ (set_same s.terms 0 r) hg
    · dsimp only
      rw [set_same]
      exact ⟨fun _ => hg, fun h => by omega⟩

theorem alone_run (hc1 : c.envs = 1) (hce : c.evaluation = true) (hb : c.batch = false) (hs : c.syncEpisodes = false)
    {N : Nat} (h0 : 0 < N) (hN : c.numEpisodes = some N) (hT : c.numTimesteps = none) (hcb : ∀ l, o.callback l = true) (k : Nat) :
    AloneOk N ((run c o k).prev 0) (run c o k) := by
  induction k with
  | zero =>
    obtain ⟨-, -, h1, -, -, h2, -, h3, -⟩ := init_spec (c := c)
    exact ⟨fun _ => ⟨h3, by rw [run, h2]; exact h0⟩, fun h => by rw [run, h1] at h; omega⟩
  | succ k ih =>
    unfold run
    split
    case isFalse => exact ih
    case isTrue =>
      unfold iteration jointly
      rw [if_neg (by rw [hb]; decide), hc1]
      have := alone_visit hc1 hce hb hs hN hT hcb k _ ih
      rw [syncReset_eq, if_neg (by rw [hs]; simp)]
      exact this.rec (fun a b => ⟨a, b⟩)

end Verif.Runner
