import Verif.Agent.Lemmas

/-! # One call of the interface refines one step of the specification -/

namespace Verif.Agent

variable {X A R : Type}

/-- The relation between interface and specification. -/
def Rel (cfg : Config) (st : State X A R) (s : Spec X A R) : Prop :=
  CoreRel st s ∧ ∀ rc, cfg.recorder = some rc → BufRel rc st s

theorem rel_init (cfg : Config) : Rel cfg (State.init : State X A R) Spec.init := by
  refine ⟨⟨fun _ => rfl, fun _ => rfl, rfl, rfl⟩, fun rc _ => ⟨rfl, fun _ p => ?_, fun _ p => ?_⟩⟩
  · simp [State.init, Spec.init]
  · simp [State.init]

theorem writeRel_init (rc : Rec) : WriteRel rc (State.init : State X A R) Spec.init := by
  simp [WriteRel, State.init, Spec.init, tracesOf]

/-! ## Zips -/

theorem zip3_fst {α β γ : Type} (as : List α) (bs : List β) (cs : List γ) (h1 : bs.length = as.length)
    (h2 : cs.length = as.length) : (as.zip (bs.zip cs)).map (·.1) = as := by
  rw [List.map_fst_zip]
  simp [h1, h2]

theorem zip3_snd {α β γ : Type} (as : List α) (bs : List β) (cs : List γ) (h1 : bs.length = as.length)
    (h2 : cs.length = as.length) : (as.zip (bs.zip cs)).map (fun x => (x.1, x.2.1)) = as.zip bs := by
  induction as generalizing bs cs with
  | nil => simp
  | cons a as ih =>
    cases bs with
    | nil => simp at h1
    | cons b bs =>
      cases cs with
      | nil => simp at h2
      | cons c cs =>
        simp only [List.length_cons, Nat.add_right_cancel_iff] at h1 h2
        simp [ih bs cs h1 h2]

theorem zip3_thd {α β γ : Type} (as : List α) (bs : List β) (cs : List γ) (h1 : bs.length = as.length)
    (h2 : cs.length = as.length) : (as.zip (bs.zip cs)).map (fun x => (x.1, x.2.2)) = as.zip cs := by
  induction as generalizing bs cs with
  | nil => simp
  | cons a as ih =>
    cases bs with
    | nil => simp at h1
    | cons b bs =>
      cases cs with
      | nil => simp at h2
      | cons c cs =>
        simp only [List.length_cons, Nat.add_right_cancel_iff] at h1 h2
        simp [ih bs cs h1 h2]

theorem find_none {β : Type} (l : List (Nat × β)) (q : Nat) :
    l.find? (fun x => x.1 == q) = none ↔ q ∉ l.map (·.1) := by
  rw [List.find?_eq_none]
  simp only [beq_iff_eq, List.mem_map, not_exists, not_and]

/-- Each named interaction gets its value appended. -/
theorem appendEach_eq {β γ : Type} (g : γ → β) (l : List (Nat × γ)) (f : Nat → List β) (hn : (l.map (·.1)).Nodup)
    (q : Nat) :
    appendEach f (l.map fun x => (x.1, g x.2)) q = f q ++ (l.find? (fun x => x.1 == q)).toList.map (fun x => g x.2) := by
  induction l generalizing f with
  | nil => simp [appendEach]
  | cons x l ih =>
    obtain ⟨p, y⟩ := x
    simp only [List.map_cons, List.nodup_cons] at hn
    simp only [List.map_cons, appendEach]
    rw [ih _ hn.2, List.find?_cons]
    by_cases e : p = q
    · subst e
      have : l.find? (fun x => x.1 == p) = none := (find_none l p).mpr hn.1
      simp [this, upd]
    · have h1 : (p == q) = false := by simpa using e
      rw [upd_other _ _ _ _ (fun h => e h.symm)]
      simp [h1]

/-! ## act -/

theorem any_parallel (n : Nat) (ps : List Nat) : ps.any (fun p => decide (n ≤ p)) = true ↔ ¬ ∀ p ∈ ps, p < n := by
  simp only [List.any_eq_true, decide_eq_true_eq]
  constructor
  · rintro ⟨p, hp, h⟩ hall
    have := hall p hp
    omega
  · intro h
    apply Classical.byContradiction
    intro hc
    apply h
    intro p hp
    apply Classical.byContradiction
    intro h2
    exact hc ⟨p, hp, by omega⟩

/-- Is the `act` call found in order? -/
theorem act_checks (cfg : Config) (st : State X A R) (s : Spec X A R) (h : CoreRel st s) (ps : List Nat) (xs : List X)
    (res : Option (List A)) (hno : ¬ s.accepts cfg (.act ps xs res)) : st.step cfg (.act ps xs res) = (st, false) := by
  simp only [State.step]
  split
  · rfl
  · rename_i h1
    split
    · rfl
    · rename_i h2
      exfalso
      apply hno
      simp only [not_or, Decidable.not_not, any_parallel] at h1
      refine ⟨h1.1, h1.2, fun p hp => ?_⟩
      have h3 : st.completed p = true := by
        simp only [List.any_eq_true, not_exists, not_and] at h2
        have := h2 p hp
        simpa using this
      rw [h.1 p] at h3
      exact Option.isNone_iff_eq_none.mp h3

theorem observe_checks (cfg : Config) (st : State X A R) (s : Spec X A R) (h : CoreRel st s) (ps ts : List Nat)
    (rs : List R) (hno : ¬ s.accepts cfg (.observe ps ts rs)) : st.step cfg (.observe ps ts rs) = (st, false) := by
  simp only [State.step]
  split
  · rfl
  · rename_i h1
    split
    · rfl
    · rename_i h2
      exfalso
      apply hno
      simp only [not_or, Decidable.not_not, any_parallel] at h1
      refine ⟨h1.1, h1.2.2.1, h1.2.1, h1.2.2.2, fun p hp => ?_⟩
      have h3 : st.completed p = false := by
        simp only [List.any_eq_true, not_exists, not_and] at h2
        have := h2 p hp
        simpa using this
      rw [h.1 p] at h3
      intro e
      simp [e] at h3

/-- An accepted `act` call. -/
theorem act_step (cfg : Config) (st : State X A R) (s : Spec X A R) (h : Rel cfg st s) (ps : List Nat) (xs : List X)
    (as : List A) (hok : s.accepts cfg (.act ps xs (some as))) (hn : ps.Nodup) (ha : as.length = ps.length) :
    (st.step cfg (.act ps xs (some as))).2 = true ∧
    Rel cfg (st.step cfg (.act ps xs (some as))).1 (s.effect (.act ps xs (some as))) ∧
    ∀ rc, cfg.recorder = some rc → WriteRel rc st s →
      WriteRel rc (st.step cfg (.act ps xs (some as))).1 (s.effect (.act ps xs (some as))) := by
  obtain ⟨hx, hlt, hpend⟩ := hok
  obtain ⟨⟨r1, r2, r3, r4⟩, hbuf⟩ := h
  have hk : (ps.zip (xs.zip as)).map (·.1) = ps := zip3_fst ps xs as hx ha
  have hz1 := zip3_snd ps xs as hx ha
  have hz2 := zip3_thd ps xs as hx ha
  have hlen : (ps.zip (xs.zip as)).length = ps.length := by simp [hx, ha]
  have c1 : ¬ (xs.length ≠ ps.length ∨ ps.any (fun p => decide (cfg.parallel ≤ p)) = true) := by
    rw [any_parallel]; simp only [not_or, Decidable.not_not]; exact ⟨hx, hlt⟩
  have c2 : ¬ (ps.any (fun p => !st.completed p)) = true := by
    simp only [List.any_eq_true, not_exists, not_and]
    intro p hp
    simp [r1 p, hpend p hp]
  simp only [State.step, if_neg c1, if_neg c2]
  simp only [Spec.effect]
  generalize hl : ps.zip (xs.zip as) = l at *
  obtain ⟨a1, a2, a3⟩ := actLoop_cur l s
  have hp' := actLoop_pend l s (by rw [hk]; exact hn)
  have hfind : ∀ q, q ∈ ps → l.find? (fun x => x.1 == q) ≠ none := by
    intro q hq e
    rw [find_none, hk] at e
    exact e hq
  have hcore : ∀ p, (st.completed p && !ps.contains p) = ((s.actLoop l).pend p).isNone := by
    intro p
    rw [hp' p]
    by_cases hp : p ∈ ps
    · obtain ⟨y, hy⟩ := Option.ne_none_iff_exists'.mp (hfind p hp)
      simp [hy, hp]
    · have : l.find? (fun x => x.1 == p) = none := by rw [find_none, hk]; exact hp
      simp [this, hp, r1 p]
  refine ⟨trivial, ⟨?_, ?_⟩, ?_⟩
  · by_cases hrec : recording cfg st = true
    · simp only [recording] at hrec ⊢
      simp only [hrec, if_true, CoreRel]
      exact ⟨hcore, by rw [a1]; exact r2, by rw [a3, hlen, r3], by rw [a2]; exact r4⟩
    · simp only [recording] at hrec ⊢
      simp only [hrec, Bool.false_eq_true, if_false, CoreRel]
      exact ⟨hcore, by rw [a1]; exact r2, by rw [a3, hlen, r3], by rw [a2]; exact r4⟩
  · intro rc hrc
    obtain ⟨b1, b2, b3⟩ := hbuf rc hrc
    by_cases hs : rc.start ≤ s.done.length
    · have hs' : rc.start ≤ st.numEpisodes := by omega
      simp only [recording, hrc, ge_iff_le, hs', decide_true, if_true]
      refine ⟨by rw [a2]; exact b1, fun _ p => ?_, fun hlt => by rw [a2] at hlt; omega⟩
      obtain ⟨d1, d2, d3, d4⟩ := b2 hs p
      dsimp only
      rw [← hz1, ← hz2, appendEach_eq (fun y : X × A => y.1) l _ (by rw [hk]; exact hn),
        appendEach_eq (fun y : X × A => y.2) l _ (by rw [hk]; exact hn), hp' p, a1, d1, d2]
      by_cases hp : p ∈ ps
      · obtain ⟨y, hy⟩ := Option.ne_none_iff_exists'.mp (hfind p hp)
        simp [hy, hpend p hp, d3, d4]
      · have : l.find? (fun x => x.1 == p) = none := by rw [find_none, hk]; exact hp
        simp [this, d3, d4]
    · have hs' : ¬ rc.start ≤ st.numEpisodes := by omega
      simp only [recording, hrc, ge_iff_le, hs', decide_false, Bool.false_eq_true, if_false]
      exact ⟨by rw [a2]; exact b1, fun h => absurd (a2 ▸ h) hs, fun _ => b3 (by omega)⟩
  · intro rc hrc hw
    simp only [WriteRel] at hw ⊢
    rw [a2]
    by_cases hrec : recording cfg st = true
    · simp only [recording] at hrec ⊢
      simp only [hrec, if_true]
      exact hw
    · simp only [recording] at hrec ⊢
      simp only [hrec, Bool.false_eq_true, if_false]
      exact hw

/-! ## observe -/

theorem map_any {α β : Type} (g : α → β) (P : β → Bool) (l : List α) : (l.map g).any P = l.any fun x => P (g x) := by
  induction l <;> simp_all

/-- The recorder, in a call that is in order. -/
theorem record_step (cfg : Config) (rc : Rec) (hrc : cfg.recorder = some rc) (st : State X A R) (s : Spec X A R)
    (l : List (Nat × Nat × R)) (hn : (keys l).Nodup) (hp : ∀ p ∈ keys l, s.pend p ≠ none) (hb : BufRel rc st s)
    (hcs : CleanStart cfg s (s.observeLoop l)) :
    ∃ st', record (some rc) st l = (st', true) ∧ SameAgent st' st ∧ BufRel rc st' (s.observeLoop l) ∧
      (0 < rc.frequency → WriteRel rc st s → WriteRel rc st' (s.observeLoop l)) := by
  obtain ⟨b1, b2, b3⟩ := hb
  by_cases hs : rc.start ≤ s.done.length
  · obtain ⟨st', e1, e2, e3, e4, e5, e6⟩ := record_loop rc l st s hn hp hs b1 (b2 hs)
    refine ⟨st', ?_, e2, ⟨e3, fun _ => e5, fun h => by omega⟩, e6⟩
    simp only [record]
    rw [if_neg (by omega)]
    exact e1
  · have hd := observeLoop_done l s hn hp
    have hlt : s.done.length < rc.start := by omega
    refine ⟨{ st with numEpisodes := st.numEpisodes + terminals l }, ?_, by simp [SameAgent], ⟨?_, ?_, ?_⟩, ?_⟩
    · simp only [record]
      rw [if_pos (by omega)]
      rfl
    · show st.numEpisodes + terminals l = _
      rw [hd, b1]
    · intro hge p
      obtain ⟨_, hclean⟩ := hcs rc hrc hlt hge
      obtain ⟨c1, c2⟩ := hclean p
      obtain ⟨d1, d2, d3, d4⟩ := b3 hlt p
      simp [c1, c2, d1, d2, d3, d4]
    · intro _ p
      exact b3 hlt p
    · intro _ hw
      have hle : (s.observeLoop l).done.length ≤ rc.start := by
        by_cases hge : rc.start ≤ (s.observeLoop l).done.length
        · rw [(hcs rc hrc hlt hge).1]; exact Nat.le_refl _
        · omega
      simp only [WriteRel] at hw ⊢
      rw [List.drop_of_length_le (by omega : s.done.length ≤ rc.start)] at hw
      rw [List.drop_of_length_le hle]
      exact hw

/-- An accepted `observe` call. -/
theorem observe_step (cfg : Config) (st : State X A R) (s : Spec X A R) (h : Rel cfg st s) (ps ts : List Nat)
    (rs : List R) (hok : s.accepts cfg (.observe ps ts rs)) (hsm : Smooth cfg s (.observe ps ts rs)) :
    (st.step cfg (.observe ps ts rs)).2 = true ∧
    Rel cfg (st.step cfg (.observe ps ts rs)).1 (s.effect (.observe ps ts rs)) ∧
    ∀ rc, cfg.recorder = some rc → 0 < rc.frequency → WriteRel rc st s →
      WriteRel rc (st.step cfg (.observe ps ts rs)).1 (s.effect (.observe ps ts rs)) := by
  obtain ⟨hne, ht, hr, hlt, hpend⟩ := hok
  obtain ⟨hn, hlim, hcs⟩ := hsm
  obtain ⟨⟨r1, r2, r3, r4⟩, hbuf⟩ := h
  have hk : keys (ps.zip (ts.zip rs)) = ps := zip3_fst ps ts rs ht hr
  have hz := zip3_snd ps ts rs ht hr
  simp only [Spec.effect] at hcs ⊢
  have c1 : ¬ (ps = [] ∨ rs.length ≠ ps.length ∨ ts.length ≠ ps.length ∨
      ps.any (fun p => decide (cfg.parallel ≤ p)) = true) := by
    rw [any_parallel]; simp only [not_or, Decidable.not_not]; exact ⟨hne, hr, ht, hlt⟩
  have c2 : ¬ (ps.any (fun p => st.completed p)) = true := by
    simp only [List.any_eq_true, not_exists, not_and]
    intro p hp
    rw [r1 p]
    have := hpend p hp
    cases h : s.pend p with
    | none => exact absurd h this
    | some y => simp
  have c3 : ¬ tooLong cfg.limit (fun p => if ps.contains p then st.counter p + 1 else st.counter p) (ps.zip ts) = true := by
    unfold tooLong
    cases hm : cfg.limit with
    | none => simp
    | some m =>
      simp only [List.any_eq_true, Bool.and_eq_true, beq_iff_eq, decide_eq_true_eq, not_exists, not_and, Prod.forall]
      intro p t hpt h0
      have h1 := hlim m hm (p, t) hpt h0
      have h2 : p ∈ ps := (List.of_mem_zip hpt).1
      simp only [List.contains_iff_mem, h2, if_true, r2 p]
      simp only at h1
      omega
  simp only [State.step, if_neg c1, if_neg c2, if_neg c3]
  generalize hl : ps.zip (ts.zip rs) = l at *
  have hpk : ∀ p ∈ keys l, s.pend p ≠ none := by rw [hk]; exact hpend
  have hnk : (keys l).Nodup := by rw [hk]; exact hn
  have hpd := observeLoop_pend l s
  have hcomp : ∀ p, (st.completed p || ps.contains p) = ((s.observeLoop l).pend p).isNone := by
    intro p
    rw [hpd p, hk]
    by_cases hp : p ∈ ps
    · simp [hp]
    · simp [hp, r1 p]
  have hcnt : ∀ p, restart (fun p => if ps.contains p then st.counter p + 1 else st.counter p) (ps.zip ts) p =
      ((s.observeLoop l).cur p).length := by
    intro p
    rw [← hz]
    apply restart_cur l s _ hnk hpk
    intro q
    rw [hk]
    by_cases hq : q ∈ ps
    · simp [hq, r2 q]
    · simp [hq, r2 q]
  have hdone := observeLoop_done l s hnk hpk
  have hacts := observeLoop_acts l s
  -- the state handed to the recorder
  generalize hst1 : ({ st with completed := fun p => st.completed p || ps.contains p,
                               counter := restart (fun p => if ps.contains p then st.counter p + 1 else st.counter p)
                                 (ps.zip ts) } : State X A R) = st1
  have e1 : st1.completed = fun p => st.completed p || ps.contains p := by rw [← hst1]
  have e2 : st1.counter = restart (fun p => if ps.contains p then st.counter p + 1 else st.counter p) (ps.zip ts) := by
    rw [← hst1]
  have e3 : st1.timesteps = st.timesteps ∧ st1.episodes = st.episodes := by rw [← hst1]; exact ⟨rfl, rfl⟩
  have e4 : SameRec st1 st := by rw [← hst1]; simp [SameRec]
  have main : ∃ st', record cfg.recorder st1 l = (st', true) ∧ SameAgent st' st1 ∧
      (∀ rc, cfg.recorder = some rc → BufRel rc st' (s.observeLoop l)) ∧
      (∀ rc, cfg.recorder = some rc → 0 < rc.frequency → WriteRel rc st s → WriteRel rc st' (s.observeLoop l)) := by
    cases hrc : cfg.recorder with
    | none => exact ⟨st1, rfl, by simp [SameAgent], by simp, by simp⟩
    | some rc =>
      have hb1 : BufRel rc st1 s := by
        obtain ⟨b1, b2, b3⟩ := hbuf rc hrc
        rw [← hst1]
        exact ⟨b1, b2, b3⟩
      obtain ⟨st', f1, f2, f3, f4⟩ := record_step cfg rc hrc st1 s l hnk hpk hb1 hcs
      refine ⟨st', f1, f2, ?_, ?_⟩
      · rintro rc' ⟨⟩; exact f3
      · rintro rc' ⟨⟩ hf hw
        apply f4 hf
        rw [← hst1]
        exact hw
  obtain ⟨st', f1, f2, f3, f4⟩ := main
  rw [f1]
  obtain ⟨g1, g2, g3, g4, g5⟩ := bufferLoop_facts cfg.buffer l st'
  simp only [SameAgent] at f2
  obtain ⟨k1, k2, _, _, _, k6, k7⟩ := f2
  simp only
  generalize bufferLoop cfg.buffer st' l = st2 at *
  simp only [SameRec] at g4
  obtain ⟨q1, q2, q3, q4, q5, q6, q7, q8, q9, q10, q11⟩ := g4
  refine ⟨trivial, ⟨⟨?_, ?_, ?_, ?_⟩, ?_⟩, ?_⟩
  · intro p; rw [g1, k1, e1]; exact hcomp p
  · intro p; rw [g2, k2, e2]; exact hcnt p
  · rw [g3, k6, e3.1, hacts]; exact r3
  · rw [g5, k7, e3.2, hdone, r4]
  · intro rc hrc
    obtain ⟨b1, b2, b3⟩ := f3 rc hrc
    refine ⟨by rw [q1]; exact b1, fun h p => ?_, fun h p => ?_⟩
    · rw [q2, q3, q4, q5]; exact b2 h p
    · rw [q2, q3, q4, q5]; exact b3 h p
  · intro rc hrc hf hw
    have := f4 rc hrc hf hw
    simp only [WriteRel] at this ⊢
    rw [q6, q7, q8, q9, q11]
    exact this

/-! ## Histories -/

theorem rel_step (cfg : Config) (st : State X A R) (s : Spec X A R) (h : Rel cfg st s) (o : Op X A R)
    (hsm : s.accepts cfg o → Smooth cfg s o) :
    (st.step cfg o).2 = (s.step cfg o).2 ∧ Rel cfg (st.step cfg o).1 (s.step cfg o).1 ∧
    ((s.step cfg o).2 = false → (st.step cfg o).1 = st) := by
  by_cases ha : s.accepts cfg o
  · simp only [Spec.step, if_pos ha]
    cases o with
    | act ps xs res =>
      obtain ⟨hn, as, rfl, hlen⟩ := hsm ha
      obtain ⟨h1, h2, _⟩ := act_step cfg st s h ps xs as ha hn hlen
      exact ⟨h1, h2, by simp⟩
    | observe ps ts rs =>
      obtain ⟨h1, h2, _⟩ := observe_step cfg st s h ps ts rs ha (hsm ha)
      exact ⟨h1, h2, by simp⟩
    | reset =>
      obtain ⟨⟨r1, r2, r3, r4⟩, hbuf⟩ := h
      refine ⟨rfl, ⟨⟨fun _ => rfl, fun _ => rfl, r3, r4⟩, fun rc hrc => ?_⟩, by simp⟩
      obtain ⟨b1, _, _⟩ := hbuf rc hrc
      exact ⟨b1, fun _ p => by simp [State.step, Spec.effect], fun _ p => by simp [State.step]⟩
  · simp only [Spec.step, if_neg ha]
    have hstep : st.step cfg o = (st, false) := by
      cases o with
      | act ps xs res => exact act_checks cfg st s h.1 ps xs res ha
      | observe ps ts rs => exact observe_checks cfg st s h.1 ps ts rs ha
      | reset => exact absurd trivial ha
    rw [hstep]
    exact ⟨rfl, h, fun _ => rfl⟩

theorem rel_run (cfg : Config) (ops : List (Op X A R)) (st : State X A R) (s : Spec X A R) (h : Rel cfg st s)
    (hsm : SmoothRun cfg s ops) :
    (st.run cfg ops).2 = (s.run cfg ops).2 ∧ Rel cfg (st.run cfg ops).1 (s.run cfg ops).1 := by
  induction ops generalizing st s with
  | nil => exact ⟨rfl, h⟩
  | cons o ops ih =>
    obtain ⟨h1, h2, _⟩ := rel_step cfg st s h o hsm.1
    obtain ⟨h3, h4⟩ := ih _ _ h2 hsm.2
    exact ⟨by simp only [State.run, Spec.run, h1, h3], h4⟩

theorem write_run (cfg : Config) (rc : Rec) (hrc : cfg.recorder = some rc) (hf : 0 < rc.frequency)
    (ops : List (Op X A R)) (hno : .reset ∉ ops) (st : State X A R) (s : Spec X A R) (h : Rel cfg st s)
    (hw : WriteRel rc st s) (hsm : SmoothRun cfg s ops) : WriteRel rc (st.run cfg ops).1 (s.run cfg ops).1 := by
  induction ops generalizing st s with
  | nil => exact hw
  | cons o ops ih =>
    simp only [List.mem_cons, not_or] at hno
    obtain ⟨_, h2, h3⟩ := rel_step cfg st s h o hsm.1
    refine ih hno.2 _ _ h2 ?_ hsm.2
    by_cases ha : s.accepts cfg o
    · simp only [Spec.step, if_pos ha]
      cases o with
      | act ps xs res =>
        obtain ⟨hn, as, rfl, hlen⟩ := hsm.1 ha
        exact (act_step cfg st s h ps xs as ha hn hlen).2.2 rc hrc hw
      | observe ps ts rs =>
        exact (observe_step cfg st s h ps ts rs ha (hsm.1 ha)).2.2 rc hrc hf hw
      | reset => exact absurd rfl hno.1
    · rw [h3 (by simp [Spec.step, ha])]
      simp only [Spec.step, if_neg ha]
      exact hw

end Verif.Agent
