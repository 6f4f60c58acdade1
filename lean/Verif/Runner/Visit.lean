import Verif.Runner.Lemmas

/-! # What a visit does -/

namespace Verif.Runner

variable {c : Config} {o : Oracle}

theorem countTimestep_terminate (n : Nat) (s : State) :
    ((countTimestep c o n s).terminate = s.terminate ∧ reached (s.timesteps + 1) c.numTimesteps = false) ∨
    ((countTimestep c o n s).terminate = 2 ∧ (reached (s.timesteps + 1) c.numTimesteps = true ∨ ∃ l, o.callback l = false)) := by
  unfold countTimestep
  dsimp only
  split
  case isTrue h =>
    refine .inr ⟨rfl, ?_⟩
    rw [Bool.or_eq_true, Bool.and_eq_true] at h
    rcases h with h | h
    · exact .inr ⟨s.log, by simpa using h.2⟩
    · exact .inl h
  case isFalse h =>
    refine .inl ⟨rfl, ?_⟩
    rw [Bool.or_eq_true, not_or] at h
    simpa using h.2

theorem countEpisode_terminate (s : State) :
    ((countEpisode c o s).terminate = s.terminate ∧ (s.terminate = 0 → reached (s.episodes + 1) c.numEpisodes = false)) ∨
    (s.terminate = 0 ∧ (countEpisode c o s).terminate = 1 ∧ (reached (s.episodes + 1) c.numEpisodes = true ∨ ∃ l, o.callback l = false)) := by
  unfold countEpisode
  dsimp only
  split
  case isTrue h =>
    refine .inr ⟨h.1, rfl, ?_⟩
    have h := h.2
    rw [Bool.or_eq_true, Bool.and_eq_true] at h
    rcases h with h | h
    · exact .inr ⟨s.log, by simpa using h.2⟩
    · exact .inl h
  case isFalse h =>
    refine .inl ⟨rfl, fun h0 => ?_⟩
    have h : ¬ _ := fun k => h ⟨h0, k⟩
    rw [Bool.or_eq_true, not_or] at h
    simpa using h.2

structure Acted (c : Config) (o : Oracle) (n : Nat) (s s' : State) : Prop where
  log : s'.log = .execute n :: .act n :: s.log
  terms : s'.terms = s.terms
  pending : s'.pending n = false
  steps : s'.steps n = s.steps n + 1
  timesteps : s'.timesteps = s.timesteps + 1
  episodes : s'.episodes = s.episodes
  updates : s'.updates = s.updates
  terminate : (s'.terminate = s.terminate ∧ reached s'.timesteps c.numTimesteps = false) ∨
    (s'.terminate = 2 ∧ (reached s'.timesteps c.numTimesteps = true ∨ ∃ l, o.callback l = false))

theorem handleAct_spec (hb : c.batch = false) (n : Nat) (s : State) : Acted c o n s (handleAct c o n s) := by
  unfold handleAct
  simp only [hb, Bool.false_eq_true, if_false]
  obtain ⟨-, h2, h3, h4, h5, h6, h7, h8⟩ := countTimestep_frame (c := c) (o := o) n (execute n { s with log := .act n :: s.log })
  have h9 := countTimestep_terminate (c := c) (o := o) n (execute n { s with log := .act n :: s.log })
  refine ⟨h5, h2, ?_, ?_, h8, h6, h7, ?_⟩
  · rw [h3]; exact set_same ..
  · rw [h4]; exact set_same ..
  · rw [h8]; exact h9

structure Observed (c : Config) (o : Oracle) (n : Nat) (s s' : State) : Prop where
  code : s'.terms n = if s.terms n = 0 ∧ s.terminate = 2 then 2 else s.terms n
  log : s'.log = .observe n (s'.terms n) :: s.log
  pending : s'.pending = s.pending
  steps : s'.steps = s.steps
  timesteps : s'.timesteps = s.timesteps
  episodes : s'.episodes = s.episodes
  updates : s.updates ≤ s'.updates
  terminate : (s'.terminate = s.terminate ∧ reached s'.updates c.numUpdates = false) ∨
    (s'.terminate = 2 ∧ reached s'.updates c.numUpdates = true)

theorem cutOff_spec (n : Nat) (s : State) : (cutOff n s).terms n = (if s.terms n = 0 ∧ s.terminate = 2 then 2 else s.terms n) ∧
    (cutOff n s).pending = s.pending ∧ (cutOff n s).steps = s.steps ∧ (cutOff n s).timesteps = s.timesteps ∧
    (cutOff n s).episodes = s.episodes ∧ (cutOff n s).updates = s.updates ∧ (cutOff n s).terminate = s.terminate ∧ (cutOff n s).log = s.log := by
  unfold cutOff
  split
  · exact ⟨set_same .., rfl, rfl, rfl, rfl, rfl, rfl, rfl⟩
  · exact ⟨rfl, rfl, rfl, rfl, rfl, rfl, rfl, rfl⟩

theorem handleObserve_spec (hb : c.batch = false) (n : Nat) (s : State) : Observed c o n s (handleObserve c o n s) := by
  obtain ⟨h1, h2, h3, h4, h5, h6, h7, h8⟩ := cutOff_spec n s
  unfold handleObserve tell
  simp only [hb, Bool.false_eq_true, if_false]
  split
  case isTrue h =>
    exact ⟨h1, by simp only [h8], h2, h3, h4, h5, by dsimp only; omega, .inr ⟨rfl, h⟩⟩
  case isFalse h =>
    exact ⟨h1, by simp only [h8], h2, h3, h4, h5, by dsimp only; omega, .inl ⟨h7, by simpa using h⟩⟩

theorem handle_acts (he : c.isEval n = false) (s : State) (h : s.terms n = -1) : handle c o n s = handleAct c o n s := by
  unfold handle
  rw [if_neg (by rw [he]; decide), if_pos h]

theorem handle_observes (he : c.isEval n = false) (s : State) (h : s.terms n ≠ -1) :
    handle c o n s = if (handleObserve c o n s).terms n = 0 then handleAct c o n (handleObserve c o n s) else handleTerminal c o n (handleObserve c o n s) := by
  unfold handle
  rw [if_neg (by rw [he]; decide), if_neg h]

theorem terminal_spec (n : Nat) (s : State) :
    let s' := handleTerminal c o n s
    s'.timesteps = s.timesteps ∧ s'.episodes = s.episodes + 1 ∧ s'.updates = s.updates ∧ s'.steps n = 0 ∧
    s'.terminate = (countEpisode c o s).terminate ∧
    ((s'.terminate = 0 ∧ c.syncEpisodes = false ∧ s'.log = .reset n :: s.log ∧ s'.terms n = -1 ∧ s'.pending n = true) ∨
     ((s'.terminate ≠ 0 ∨ c.syncEpisodes = true) ∧ s'.log = s.log ∧ s'.terms n = s.terms n ∧ s'.pending n = s.pending n)) := by
  obtain ⟨-, h2, h3, h4, h5, h6, h7, h8⟩ := countEpisode_frame (c := c) (o := o) s
  unfold handleTerminal maybeReset
  dsimp only
  by_cases hc : (countEpisode c o s).terminate = 0 ∧ c.syncEpisodes = false
  · rw [if_pos hc]
    exact ⟨h6, h8, h7, set_same .., rfl, .inl ⟨hc.1, hc.2, by rw [startReset]; simp only [h5], set_same .., set_same ..⟩⟩
  · rw [if_neg hc]
    refine ⟨h6, h8, h7, set_same .., rfl, .inr ⟨?_, h5, by dsimp only; rw [h2], by dsimp only; rw [h3]⟩⟩
    by_cases h0 : (countEpisode c o s).terminate = 0
    · right; cases hs : c.syncEpisodes with
      | true => rfl
      | false => exact absurd ⟨h0, hs⟩ hc
    · exact .inl h0

theorem visit_cases (hb : c.batch = false) (he : c.isEval n = false) (i : Nat) (s : State)
    (hok : EnvOk (s.prev n) (s.pending n) (phase n s.log)) : Visited c o i n s (visit c o i s n) := by
  unfold visit
  by_cases hp : s.prev n > 0
  · rw [if_pos hp]
    exact .idle (.inl hp) rfl (set_same ..) rfl rfl rfl rfl rfl rfl
  rw [if_neg hp, if_neg (by rw [hb]; decide)]
  by_cases hr : (c.syncTimesteps || o.ready i n) = true
  case neg =>
    rw [if_neg hr]
    exact .idle (.inr (by simpa using hr)) rfl (set_same ..) rfl rfl rfl rfl rfl rfl
  rw [if_pos hr]
  rcases hok with ⟨h, -⟩ | ⟨-, hpend, hph⟩ | ⟨-, hpend, hph⟩
  · exact absurd h hp
  · have hrep : reply o n s = -1 := by simp [reply, hpend]
    rw [hrep, handle_acts he _ (set_same ..)]
    have a := handleAct_spec (c := c) (o := o) hb n { s with terms := set s.terms n (-1) }
    refine .start hph a.log (by rw [a.terms]; exact set_same ..) a.pending a.steps a.timesteps a.episodes a.updates ?_ ?_
    · rcases a.terminate with h | h
      · exact .inl h
      · exact .inr h.1
    · intro hne
      rcases a.terminate with h | h
      · exact absurd h.1 hne
      · exact h.2
  · have hrep : reply o n s = (o.code s.log n (s.steps n) : Int) := by simp [reply, hpend]
    rw [hrep]
    generalize hk : o.code s.log n (s.steps n) = k
    rw [handle_observes he _ (by dsimp only; rw [set_same]; omega)]
    have b := handleObserve_spec (c := c) (o := o) hb n { s with terms := set s.terms n (k : Int) }
    generalize handleObserve c o n { s with terms := set s.terms n (k : Int) } = s1 at b
    have hcode := b.code
    simp only [set_same] at hcode
    by_cases h0 : s1.terms n = 0
    · rw [if_pos h0]
      have a := handleAct_spec (c := c) (o := o) hb n s1
      have hk0 : k = 0 ∧ s.terminate ≠ 2 := by
        rw [h0] at hcode
        split at hcode
        · omega
        · rename_i h; constructor
          · omega
          · intro h2; exact h ⟨by omega, h2⟩
      have hlog := a.log
      rw [b.log, h0] at hlog
      refine .goOn hph hlog (by rw [a.terms, h0]) a.pending (by rw [a.steps, b.steps]) (hk.trans hk0.1) hk0.2
        (by rw [a.timesteps, b.timesteps]) (by rw [a.episodes, b.episodes]) (by rw [a.updates]; exact b.updates) ?_ ?_
      · rcases a.terminate with h | h
        · rcases b.terminate with g | g
          · exact .inl ⟨h.1.trans g.1, h.2, by rw [a.updates]; exact g.2⟩
          · exact .inr (h.1.trans g.1)
        · exact .inr h.1
      · intro hne
        rcases a.terminate with h | h
        · rcases b.terminate with g | g
          · exact absurd (h.1.trans g.1) hne
          · exact .inr (.inl (by rw [a.updates]; exact g.2))
        · rcases h.2 with h | h
          · exact .inl h
          · exact .inr (.inr h)
    · rw [if_neg h0]
      have hpos : 0 < s1.terms n := by
        rw [hcode] at h0 ⊢
        split
        · decide
        · rename_i h; rw [if_neg h] at h0; omega
      obtain ⟨t1, t2, t3, t4, t5, t6⟩ := terminal_spec (c := c) (o := o) n s1
      have e := countEpisode_terminate (c := c) (o := o) s1
      rw [← t5, ← t2] at e
      generalize handleTerminal c o n s1 = s' at *
      have bt := b.terminate
      rw [← t3] at bt
      rcases t6 with ⟨u1, u2, u3, u4, u5⟩ | ⟨u1, u3, u4, u5⟩
      · have hs1 : s1.terminate = 0 ∧ reached s'.episodes c.numEpisodes = false := by
          rcases e with e | e
          · exact ⟨by rw [← e.1]; exact u1, e.2 (by rw [← e.1]; exact u1)⟩
          · omega
        have hs : s.terminate = 0 ∧ reached s'.updates c.numUpdates = false := by
          rcases bt with g | g
          · exact ⟨by rw [← hs1.1]; exact g.1.symm, g.2⟩
          · omega
        exact .restart hph _ hpos (by rw [u3, b.log]) u4 u5 t4 (by rw [t1, b.timesteps]) (by rw [t2, b.episodes])
          (by rw [t3]; exact b.updates) u1 hs.1 u2 ⟨hs1.2, hs.2⟩
      · have hb1 : (s1.terminate = s.terminate ∧ reached s'.updates c.numUpdates = false) ∨ (s1.terminate = 2 ∧ reached s'.updates c.numUpdates = true) := bt
        refine .finish hph _ hpos (by rw [u3, b.log]) u4 (by rw [u5, b.pending]) t4 (by rw [t1, b.timesteps]) (by rw [t2, b.episodes])
          (by rw [t3]; exact b.updates) u1 ?_ ?_ ?_ ?_ ?_ ?_
        · intro h2
          rcases hb1 with g | g <;> rcases e with e | e <;> omega
        · intro hz
          rcases e with e | e
          · have h1 : s1.terminate = 0 := by rw [← e.1]; exact hz
            rcases hb1 with g | g
            · exact ⟨by rw [← g.1]; exact h1, e.2 h1, g.2⟩
            · omega
          · omega
        · intro h1
          rcases hb1 with g | g <;> rcases e with e | e <;> omega
        · intro hne
          rcases hb1 with g | g
          · rcases e with e | e
            · exact absurd (e.1.trans g.1) hne
            · rcases e.2.2 with h | h
              · exact .inl h
              · exact .inr (.inr h)
          · exact .inr (.inl g.2)
        · intro h2
          rcases hb1 with g | g
          · rcases e with e | e
            · left; rw [← g.1, ← e.1]; exact h2
            · omega
          · exact .inr g.2
        · intro hr
          rcases hb1 with g | g
          · rw [g.2] at hr; cases hr
          · rcases e with e | e
            · exact e.1.trans g.1
            · omega

end Verif.Runner
