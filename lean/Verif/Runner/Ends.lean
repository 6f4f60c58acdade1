import Verif.Runner.Counts

/-! # When the runner loop ends -/

namespace Verif.Runner

variable {c : Config} {o : Oracle}

/-- Visits an environment needs once the flag is 2. -/
def Phase.rank : Phase → Nat
  | .resetting => 2
  | .executing => 1
  | _ => 0

theorem visit_terminate (hb : c.batch = false) (ht : 0 < c.train) {i k : Nat} {s : State} (hk : k < c.envs) (hm : Mid c k s)
    (h : s.terminate = 2) : (visit c o i s k).terminate = 2 := by
  rcases visit_step (o := o) (i := i) hb ht hk hm with ⟨-, hv⟩ | ⟨-, hq⟩
  · cases hv with
    | idle _ _ _ _ _ _ _ _ f => omega
    | start _ _ _ _ _ _ _ _ f => omega
    | goOn _ _ _ _ _ _ was => exact absurd h was
    | finish _ _ _ _ _ _ _ _ _ _ _ kp => exact kp h
    | restart _ _ _ _ _ _ _ _ _ _ _ was => omega
  · rw [hq.terminate]; exact h

/-- Once the flag is 2, every answer brings an environment closer to its end. -/
theorem winding_down (hb : c.batch = false) (hs : c.syncEpisodes = false) {i : Nat} {s : State} (hg : Good c s)
    (h2 : s.terminate = 2) {n : Nat} (hn : n < c.train) :
    (iteration c o i s).terminate = 2 ∧
    (phase n (iteration c o i s).log).rank ≤ (phase n s.log).rank - (if c.syncTimesteps || o.ready i n then 1 else 0) := by
  refine (iteration_ind hb
    (fun k s' => s'.terminate = 2 ∧ s'.prev = s.prev ∧ (k ≤ n → phase n s'.log = phase n s.log) ∧
      (n < k → (phase n s'.log).rank ≤ (phase n s.log).rank - (if c.syncTimesteps || o.ready i n then 1 else 0)))
    (fun s' => s'.terminate = 2 ∧ (phase n s'.log).rank ≤ (phase n s.log).rank - (if c.syncTimesteps || o.ready i n then 1 else 0))
    i s hg ⟨h2, rfl, fun _ => rfl, fun h => by omega⟩ ?_ ?_ ?_).2
  · intro k s' hk hm ⟨h1, hp, h3, h4⟩
    refine ⟨visit_terminate hb (by omega) hk hm h1, (visit_prev k i s').trans hp, fun h => ?_, fun h => ?_⟩
    · rw [visit_phases i k s' n (by omega)]; exact h3 (by omega)
    · by_cases hkn : n = k
      · subst hkn
        rcases visit_step (o := o) (i := i) hb (by omega) hk hm with ⟨-, hv⟩ | ⟨hge, -⟩
        · have h3 := h3 (Nat.le_refl _)
          generalize visit c o i s' n = s'' at hv
          rw [← h3]
          cases hv with
          | idle r hl =>
            rw [hl]
            rcases r with r | r
            · have hok := hg n hn
              rw [hp] at r
              rcases hok with e | e | e
              · rw [h3, e.2]; simp [Phase.rank]
              · omega
              · omega
            · rw [r]; simp
          | start b l => rw [l, phase_start b, b]; simp [Phase.rank]; split <;> omega
          | goOn _ _ _ _ _ _ was => exact absurd h1 was
          | finish b x hx l => rw [l, phase_finish b hx, b]; simp [Phase.rank]
          | restart _ _ _ _ _ _ _ _ _ _ _ was => omega
        · omega
      · rw [visit_phases i k s' n hkn]; exact h4 (by omega)
  · intro s' ⟨h1, _, _, h4⟩
    exact ⟨h1, h4 (by have := train_le (c := c); omega)⟩
  · intro s' hs'
    rw [hs] at hs'; cases hs'

theorem run_step {k : Nat} (h : continues c (run c o k)) : run c o (k + 1) = iteration c o k (run c o k) := if_pos h
theorem run_stop {k : Nat} (h : ¬ continues c (run c o k)) : run c o (k + 1) = run c o k := if_neg h

theorem run_over {k : Nat} (h : ¬ continues c (run c o k)) (j : Nat) : run c o (k + j) = run c o k := by
  induction j with
  | zero => rfl
  | succ j ih => rw [← Nat.add_assoc, run_stop (by rw [ih]; exact h), ih]

theorem run_good (hb : c.batch = false) (k : Nat) : Good c (run c o k) :=
  (run_ind hb (fun _ _ => True) trivial (fun _ _ _ _ _ => trivial) (fun _ _ _ _ _ => trivial) k).1

/-- How often environment `n` answers in the `j` iterations from `k` on. -/
def answers (c : Config) (o : Oracle) (n k j : Nat) : Nat := ((List.range j).map (k + ·)).countP fun i => c.syncTimesteps || o.ready i n

theorem answers_succ (n k j : Nat) : answers c o n k (j + 1) = answers c o n k j + (if c.syncTimesteps || o.ready (k + j) n then 1 else 0) := by
  simp [answers, List.range_succ, List.countP_append, List.countP_singleton]

theorem rank_falls (hb : c.batch = false) (hs : c.syncEpisodes = false) {k : Nat} (h2 : (run c o k).terminate = 2)
    {n : Nat} (hn : n < c.train) (j : Nat) :
    (run c o (k + j)).terminate = 2 ∧
      (phase n (run c o (k + j)).log).rank ≤ (phase n (run c o k).log).rank - answers c o n k j := by
  induction j with
  | zero => exact ⟨h2, by simp [answers]⟩
  | succ j ih =>
    rw [answers_succ, ← Nat.add_assoc]
    by_cases hc : continues c (run c o (k + j))
    · rw [run_step hc]
      have := winding_down (o := o) (i := k + j) hb hs (run_good hb _) ih.1 hn
      exact ⟨this.1, by omega⟩
    · rw [run_stop hc, all_ended (run_good hb _) hc n hn]
      exact ⟨ih.1, by simp [Phase.rank]⟩

theorem rank_le_two (p : Phase) : p.rank ≤ 2 := by cases p <;> simp [Phase.rank]

theorem good_ended {s : State} (hg : Good c s) (he : c.evaluation = false) (h : ∀ n, n < c.train → (phase n s.log).rank = 0) : ¬ continues c s := by
  rintro ⟨n, hn, hp⟩
  have hn : n < c.train := by simpa [Config.train, he] using hn
  have := h n hn
  rcases hg n hn with e | e | e
  · omega
  · rw [e.2.2] at this; cases this
  · rw [e.2.2] at this; cases this

/-! ## Episodes of bounded length -/

/-- Part `k` of iteration `i` reached; every unfinished environment has used the time. -/
structure Progress (c : Config) (L i k : Nat) (s : State) : Prop where
  time : ∀ n, n < c.train → phase n s.log ≠ .ended → (if n < k then i + 1 else i) ≤ s.episodes * (L + 1) + s.steps n
  steps : ∀ n, n < c.train → (phase n s.log = .executing → s.steps n ≤ L) ∧ (phase n s.log ≠ .executing → s.steps n = 0)

theorem visit_progress (hb : c.batch = false) {L : Nat} (hL : 0 < L) (hcode : ∀ l n m, L ≤ m → o.code l n m ≠ 0)
    (hready : ∀ i n, (c.syncTimesteps || o.ready i n) = true) {i k : Nat} {s : State} (hk : k < c.train) (hm : Mid c k s)
    (h : Progress c L i k s) : Progress c L i (k + 1) (visit c o i s k) ∧
      (i + 1 ≤ (visit c o i s k).episodes * (L + 1) ∨ (phase k s.log ≠ .ended → phase k (visit c o i s k).log ≠ .ended)) ∧
      s.episodes ≤ (visit c o i s k).episodes := by
  have hok := hm k hk
  rw [if_neg (by omega)] at hok
  have hv := visit_cases (o := o) hb (isEval_of_lt hk) i s hok
  have hsame := fun m (hmk : m ≠ k) => visit_same (c := c) (o := o) hmk i s
  generalize visit c o i s k = s' at hv hsame
  have ht := h.time k hk
  have hst := h.steps k hk
  rw [if_neg (by omega)] at ht
  have key : s.episodes ≤ s'.episodes → (phase k s'.log ≠ .ended → i + 1 ≤ s'.episodes * (L + 1) + s'.steps k) →
      ((phase k s'.log = .executing → s'.steps k ≤ L) ∧ (phase k s'.log ≠ .executing → s'.steps k = 0)) → Progress c L i (k + 1) s' := by
    intro he h1 h2
    have hmul := Nat.mul_le_mul_right (L + 1) he
    constructor
    · intro n hn hne
      by_cases hnk : n = k
      · subst hnk; rw [if_pos (by omega)]; exact h1 hne
      · rw [(hsame n hnk).phase] at hne
        have := h.time n hn hne
        rw [(hsame n hnk).steps]
        by_cases hlt : n < k
        · rw [if_pos hlt] at this; rw [if_pos (by omega)]; omega
        · rw [if_neg hlt] at this; rw [if_neg (by omega)]; omega
    · intro n hn
      by_cases hnk : n = k
      · subst hnk; exact h2
      · rw [(hsame n hnk).phase, (hsame n hnk).steps]; exact h.steps n hn
  cases hv with
  | idle r hl _ _ st _ e =>
    have hpos : 0 < s.prev k := by
      rcases r with r | r
      · exact r
      · rw [hready] at r; cases r
    have hend : phase k s.log = .ended := by rcases hok with e | e | e <;> first | exact e.2 | omega
    refine ⟨key (by omega) (fun hne => ?_) ?_, .inr (fun hne => absurd hend hne), by omega⟩
    · rw [hl] at hne; exact absurd hend hne
    · rw [hl, st]; exact hst
  | start b l _ _ st t e =>
    have := ht (by rw [b]; decide)
    have h0 := hst.2 (by rw [b]; decide)
    have hp : phase k s'.log = .executing := by rw [l]; exact phase_start b
    refine ⟨key (by omega) (fun _ => by rw [e]; omega) ⟨fun _ => by omega, fun h => absurd hp h⟩,
      .inr (fun _ => by rw [hp]; decide), by omega⟩
  | goOn b l _ _ st code was t e =>
    have := ht (by rw [b]; decide)
    have h0 := hst.1 b
    have hne : ¬ L ≤ s.steps k := fun hle => hcode _ _ _ hle code
    have hp : phase k s'.log = .executing := by rw [l]; exact phase_goOn b
    refine ⟨key (by omega) (fun _ => by rw [e]; omega) ⟨fun _ => by omega, fun h => absurd hp h⟩,
      .inr (fun _ => by rw [hp]; decide), by omega⟩
  | finish b x hx l _ _ st t e =>
    have := ht (by rw [b]; decide)
    have h0 := hst.1 b
    have hp : phase k s'.log = .ended := by rw [l]; exact phase_finish b hx
    have hle : i + 1 ≤ s'.episodes * (L + 1) := by rw [e, Nat.add_mul]; omega
    exact ⟨key (by omega) (fun hne => absurd hp hne) ⟨fun h => (by rw [hp] at h; cases h), fun _ => st⟩, .inl hle, by omega⟩
  | restart b x hx l _ _ st t e =>
    have := ht (by rw [b]; decide)
    have h0 := hst.1 b
    have hp : phase k s'.log = .resetting := by rw [l]; exact phase_restart b hx
    have hle : i + 1 ≤ s'.episodes * (L + 1) := by rw [e, Nat.add_mul]; omega
    exact ⟨key (by omega) (fun _ => by omega) ⟨fun h => (by rw [hp] at h; cases h), fun _ => st⟩, .inl hle, by omega⟩

theorem run_progress (hb : c.batch = false) (he : c.evaluation = false) {L : Nat} (hL : 0 < L) (hcode : ∀ l n m, L ≤ m → o.code l n m ≠ 0)
    (hready : ∀ i n, (c.syncTimesteps || o.ready i n) = true) (k : Nat) (hc : continues c (run c o k)) : Progress c L k 0 (run c o k) := by
  have htr : c.train = c.envs := by simp [Config.train, he]
  refine (run_ind hb (fun k s => continues c s → Progress c L k 0 s) ?_ ?_ ?_ k).2 hc
  · intro _
    obtain ⟨-, h1, -, h2, -, h3, -⟩ := init_spec (c := c)
    exact ⟨fun n hn _ => by rw [if_neg (by omega)]; omega, fun n hn => ⟨fun h => (by rw [h1 n hn] at h; cases h), fun _ => by rw [h2]⟩⟩
  · intro k s _ hc _ h
    exact absurd h hc
  · intro i s hg hc hj _
    have hj := hj hc
    obtain ⟨m, hm, hmp⟩ := hc
    have hm' : m < c.train := by omega
    have hma : phase m s.log ≠ .ended := by
      rcases hg m hm' with e | e | e
      · omega
      · rw [e.2.2]; decide
      · rw [e.2.2]; decide
    refine (iteration_ind hb (fun k s' => Progress c L i k s' ∧ (i + 1 ≤ s'.episodes * (L + 1) ∨ phase m s'.log ≠ .ended))
      (fun s' => Progress c L (i + 1) 0 s' ∧ (i + 1 ≤ s'.episodes * (L + 1) ∨ phase m s'.log ≠ .ended))
      i s hg ⟨hj, .inr hma⟩ ?_ ?_ ?_).2.1
    · intro k s' hk hmid ⟨h1, h2⟩
      obtain ⟨h3, h4, h5⟩ := visit_progress (o := o) hb hL hcode hready (by omega) hmid h1
      refine ⟨h3, ?_⟩
      have hmul := Nat.mul_le_mul_right (L + 1) h5
      rcases h2 with h2 | h2
      · exact .inl (by omega)
      · by_cases hkm : m = k
        · subst hkm
          rcases h4 with h4 | h4
          · exact .inl h4
          · exact .inr (h4 h2)
        · right; rw [visit_phases i k s' m hkm]; exact h2
    · intro s' ⟨h1, h2⟩
      refine ⟨⟨fun n hn hne => ?_, h1.steps⟩, h2⟩
      have := h1.time n hn hne
      rw [if_pos (by omega)] at this
      rw [if_neg (by omega)]
      exact this
    · intro s' hs hended _ _ _ ⟨h1, h2⟩
      have h2 : i + 1 ≤ s'.episodes * (L + 1) := by
        rcases h2 with h | h
        · exact h
        · exact absurd (hended m hm') h
      obtain ⟨-, -, h4, -, h5⟩ := resetAll_spec (toReset c s') s'
      refine ⟨⟨fun n hn hne => ?_, fun n hn => ⟨fun h => ?_, fun _ => ?_⟩⟩, .inl (by rw [h5.episodes]; exact h2)⟩
      · rw [if_neg (by omega), h5.episodes]; omega
      · rw [resetAll_phase _ (toReset_nodup s').1 s' n (fun _ => .inl (hended n hn)), hended n hn] at h
        split at h <;> cases h
      · rw [h4]; exact (h1.steps n hn).2 (by rw [hended n hn]; decide)

end Verif.Runner
