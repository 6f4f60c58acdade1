import Verif.Agent.Refine

/-! # Facts about the observation buffer, the specification and the trace directory -/

namespace Verif.Agent

variable {X A R : Type}

/-! ## Accepted calls -/

/-- An interaction's share of the accepted calls. -/
inductive Ev where
  | act
  | observe
  | reset
  deriving DecidableEq, Repr

/-- What a call is for interaction `p`. -/
def evOf (p : Nat) : Op X A R → List Ev
  | .act ps _ _ => List.replicate (ps.count p) .act
  | .observe ps _ _ => List.replicate (ps.count p) .observe
  | .reset => [.reset]

/-- The accepted calls for interaction `p`. -/
def accepted (p : Nat) : List (Op X A R) → List Bool → List Ev
  | o :: ops, b :: bs => (if b then evOf p o else []) ++ accepted p ops bs
  | _, _ => []

/-- act, observe, act, observe, ...; a reset starts afresh. `w`: waiting for `observe`. -/
def Alternating (w : Bool) : List Ev → Bool
  | [] => true
  | .act :: l => !w && Alternating true l
  | .observe :: l => w && Alternating false l
  | .reset :: l => Alternating false l

/-- Number of actions asked for in accepted `act` calls. -/
def actions : List (Op X A R) → List Bool → Nat
  | .act ps _ _ :: ops, b :: bs => (if b then ps.length else 0) + actions ops bs
  | _ :: ops, _ :: bs => actions ops bs
  | _, _ => 0

/-- Number of terminals in accepted `observe` calls. -/
def ends : List (Op X A R) → List Bool → Nat
  | .observe _ ts _ :: ops, b :: bs => (if b then ts.countP (fun t => decide (t > 0)) else 0) + ends ops bs
  | _ :: ops, _ :: bs => ends ops bs
  | _, _ => 0

/-- What interaction `p` observed in accepted calls. -/
def observedBy (p : Nat) : List (Op X A R) → List Bool → List (Nat × R)
  | .observe ps ts rs :: ops, b :: bs =>
    (if b then (ps.zip (ts.zip rs)).filterMap (fun x => if x.1 = p then some x.2 else none) else []) ++ observedBy p ops bs
  | _ :: ops, _ :: bs => observedBy p ops bs
  | _, _ => []

theorem alternating_append (w : Bool) (l : List Ev) (e : Ev) (m : List Ev) :
    Alternating w (e :: (l ++ m)) = Alternating w ((e :: l) ++ m) := rfl

theorem count_nodup (ps : List Nat) (p : Nat) (hn : ps.Nodup) : ps.count p = if p ∈ ps then 1 else 0 := by
  induction ps with
  | nil => simp
  | cons q ps ih =>
    simp only [List.nodup_cons] at hn
    rw [List.count_cons, ih hn.2]
    by_cases e : q = p
    · subst e; simp [hn.1]
    · have h2 : ¬ p = q := fun h => e h.symm
      simp [e, h2]

/-- Accepted calls alternate in the specification. -/
theorem spec_alternates (cfg : Config) (ops : List (Op X A R)) (s : Spec X A R) (hsm : SmoothRun cfg s ops) (p : Nat) :
    Alternating (s.pend p).isSome (accepted p ops (s.run cfg ops).2) = true := by
  induction ops generalizing s with
  | nil => rfl
  | cons o ops ih =>
    obtain ⟨h1, h2⟩ := hsm
    have hi := ih _ h2
    simp only [Spec.run, accepted]
    by_cases ha : s.accepts cfg o
    · have hsm := h1 ha
      simp only [Spec.step, if_pos ha, if_true] at hi ⊢
      cases o with
      | act ps xs res =>
        obtain ⟨hn, as, rfl, hlen⟩ := hsm
        obtain ⟨hx, _, hpend⟩ := ha
        simp only [evOf, count_nodup ps p hn]
        have hk : (ps.zip (xs.zip as)).map (·.1) = ps := zip3_fst ps xs as hx hlen
        have hp' := actLoop_pend (ps.zip (xs.zip as)) s (by rw [hk]; exact hn) p
        by_cases hp : p ∈ ps
        · simp only [hp, if_true, List.replicate_one, List.cons_append, List.nil_append, Alternating, hpend p hp]
          simp only [Spec.effect, hp'] at hi
          have : (ps.zip (xs.zip as)).find? (fun x => x.1 == p) ≠ none := by
            intro e
            rw [find_none, hk] at e
            exact e hp
          obtain ⟨y, hy⟩ := Option.ne_none_iff_exists'.mp this
          simpa [hy, Spec.effect] using hi
        · simp only [hp, if_false, List.replicate_zero, List.nil_append]
          simp only [Spec.effect, hp'] at hi
          have : (ps.zip (xs.zip as)).find? (fun x => x.1 == p) = none := by rw [find_none, hk]; exact hp
          simpa [this, Spec.effect] using hi
      | observe ps ts rs =>
        obtain ⟨hn, _, _⟩ := hsm
        obtain ⟨_, ht, hr, _, hpend⟩ := ha
        simp only [evOf, count_nodup ps p hn]
        have hk : keys (ps.zip (ts.zip rs)) = ps := zip3_fst ps ts rs ht hr
        have hp' := observeLoop_pend (ps.zip (ts.zip rs)) s p
        rw [hk] at hp'
        simp only [Spec.effect, hp'] at hi
        by_cases hp : p ∈ ps
        · obtain ⟨y, hy⟩ := Option.ne_none_iff_exists'.mp (hpend p hp)
          simp only [hp, if_true, List.replicate_one, List.cons_append, List.nil_append, Alternating, hy]
          simpa [hp, Spec.effect] using hi
        · simp only [hp, if_false, List.replicate_zero, List.nil_append]
          simpa [hp, Spec.effect] using hi
      | reset =>
        simp only [evOf, List.cons_append, List.nil_append, Alternating]
        simpa [Spec.effect] using hi
    · simp only [Spec.step, if_neg ha, Bool.false_eq_true, if_false, List.nil_append] at hi ⊢
      exact hi

/-! ## Counters and buffers: no assumption on the history -/

/-- The recorder leaves the agent's part alone. -/
theorem recordLoop_agent (rc : Rec) (l : List (Nat × Nat × R)) (st : State X A R) :
    SameAgent (recordLoop rc st l).1 st := by
  induction l generalizing st with
  | nil => simp [recordLoop, SameAgent]
  | cons x l ih =>
    obtain ⟨p, t, r⟩ := x
    simp only [recordLoop]
    split
    · have := ih { st with bufT := upd st.bufT p (st.bufT p ++ [t]), bufR := upd st.bufR p (st.bufR p ++ [r]) }
      simpa [SameAgent] using this
    · split
      · simp [SameAgent]
      · have h1 := ih (writeTrace rc (closeEpisode p (taken st p t r)))
        have h2 := (writeTrace_same rc (closeEpisode p (taken st p t r))).1
        have h3 : SameAgent (closeEpisode p (taken st p t r)) st := by simp [SameAgent, closeEpisode, taken]
        simp only [taken] at h1 h2 h3
        simp only [SameAgent] at h1 h2 h3 ⊢
        grind

theorem record_agent (rec : Option Rec) (l : List (Nat × Nat × R)) (st : State X A R) :
    SameAgent (record rec st l).1 st := by
  unfold record
  split
  · simp [SameAgent]
  · split
    · simp [SameAgent]
    · exact recordLoop_agent _ l st

theorem terminals_zip (ps ts : List Nat) (rs : List R) (h1 : ts.length = ps.length) (h2 : rs.length = ps.length) :
    terminals (ps.zip (ts.zip rs)) = ts.countP (fun t => decide (t > 0)) := by
  induction ps generalizing ts rs with
  | nil =>
    have : ts = [] := List.length_eq_zero_iff.mp (by simpa using h1)
    subst this; rfl
  | cons p ps ih =>
    cases ts with
    | nil => simp at h1
    | cons t ts =>
      cases rs with
      | nil => simp at h2
      | cons r rs =>
        simp only [List.length_cons, Nat.add_right_cancel_iff] at h1 h2
        have := ih ts rs h1 h2
        simp only [terminals] at this
        simp [terminals, List.countP_cons, this]

theorem step_counts (cfg : Config) (st : State X A R) (o : Op X A R) (ops : List (Op X A R)) (bs : List Bool) :
    (st.step cfg o).1.timesteps + actions ops bs = st.timesteps + actions (o :: ops) ((st.step cfg o).2 :: bs) ∧
    (st.step cfg o).1.episodes + ends ops bs = st.episodes + ends (o :: ops) ((st.step cfg o).2 :: bs) := by
  cases o with
  | reset => simp [State.step, actions, ends]
  | act ps xs res =>
    simp only [State.step]
    split
    · simp [actions, ends]
    · split
      · simp [actions, ends]
      · cases res with
        | none =>
          simp only [actions, ends, Bool.false_eq_true, if_false]
          split <;> simp
        | some as =>
          simp only [actions, ends, if_true]
          split <;> split <;> simp <;> omega
  | observe ps ts rs =>
    simp only [State.step]
    split
    · simp [actions, ends]
    · rename_i h
      simp only [not_or, Decidable.not_not] at h
      split
      · simp [actions, ends]
      · split
        · simp [actions, ends]
        · have hz := terminals_zip ps ts rs h.2.2.1 h.2.1
          generalize hst1 : ({ st with completed := fun p => st.completed p || ps.contains p,
                                       counter := restart (fun p => if ps.contains p then st.counter p + 1 else st.counter p)
                                         (ps.zip ts) } : State X A R) = st1
          have e : st1.timesteps = st.timesteps ∧ st1.episodes = st.episodes := by rw [← hst1]; exact ⟨rfl, rfl⟩
          have hr := record_agent cfg.recorder (ps.zip (ts.zip rs)) st1
          simp only [SameAgent] at hr
          split
          · rename_i st2 h2
            rw [h2] at hr
            simp only [actions, ends, Bool.false_eq_true, if_false]
            grind
          · rename_i st2 h2
            rw [h2] at hr
            have hb := bufferLoop_facts cfg.buffer (ps.zip (ts.zip rs)) st2
            simp only [actions, ends, if_true]
            rw [hb.2.2.1, hb.2.2.2.2, hz]
            grind

theorem run_counts (cfg : Config) (ops : List (Op X A R)) (st : State X A R) :
    (st.run cfg ops).1.timesteps = st.timesteps + actions ops (st.run cfg ops).2 ∧
    (st.run cfg ops).1.episodes = st.episodes + ends ops (st.run cfg ops).2 := by
  induction ops generalizing st with
  | nil => simp [State.run, actions, ends]
  | cons o ops ih =>
    obtain ⟨h1, h2⟩ := ih (st.step cfg o).1
    obtain ⟨h3, h4⟩ := step_counts cfg st o ops ((st.step cfg o).1.run cfg ops).2
    simp only [State.run]
    exact ⟨by rw [h1]; exact h3, by rw [h2]; exact h4⟩

/-! ## The observation buffer -/

/-- A full batch: nonempty, as many rewards as terminals, only the last may be a terminal; handed over because of the
terminal or because the buffer size is reached. -/
def FullBatch (buffer : Option Nat) (b : List Nat × List R) : Prop :=
  b.1.length = b.2.length ∧ ∃ ts t, b.1 = ts ++ [t] ∧ (∀ x ∈ ts, x = 0) ∧
    (∀ k, buffer = some k → ts.length < k) ∧ (t = 0 → buffer = some (ts.length + 1))

/-- A batch under way: no terminal and not yet of the buffer size. -/
def OpenBatch (buffer : Option Nat) (b : List Nat × List R) : Prop :=
  b.1.length = b.2.length ∧ (∀ x ∈ b.1, x = 0) ∧ ∀ k, buffer = some k → b.1.length < k

/-- All batches as one list of observations. -/
def flat (bs : List (List Nat × List R)) : List (Nat × R) := bs.flatMap fun b => b.1.zip b.2

/-- Batches `new` handed over since `st0`, `obs` observed since. -/
def BatchInv (cfg : Config) (st0 st : State X A R) (p : Nat) (obs : List (Nat × R)) : Prop :=
  ∃ new, st.flushed p = st0.flushed p ++ new ∧ flat new ++ (st.termBuf p).zip (st.rewBuf p) = obs ∧
    (∀ b ∈ new, FullBatch cfg.buffer b) ∧ OpenBatch cfg.buffer (st.termBuf p, st.rewBuf p)

theorem bufferOne_inv (cfg : Config) (hk : cfg.buffer ≠ some 0) (st0 st : State X A R) (p q t : Nat) (r : R)
    (obs : List (Nat × R)) (h : BatchInv cfg st0 st p obs) :
    BatchInv cfg st0 (bufferOne cfg.buffer st q t r) p (obs ++ if q = p then [(t, r)] else []) := by
  obtain ⟨new, h1, h2, h3, h4, h5, h6⟩ := h
  by_cases e : q = p
  · subst e
    simp only [bufferOne, if_true]
    have hzip : (st.termBuf q ++ [t]).zip (st.rewBuf q ++ [r]) = (st.termBuf q).zip (st.rewBuf q) ++ [(t, r)] := by
      rw [List.zip_append h4]; rfl
    split
    · rename_i hkeep
      refine ⟨new, h1, ?_, h3, ?_⟩
      · simp only [upd_same]
        rw [hzip, ← h2, List.append_assoc]
      · simp only [keep, Bool.and_eq_true, beq_iff_eq] at hkeep
        obtain ⟨h0, hlen⟩ := hkeep
        refine ⟨by simp only [upd_same, List.length_append, List.length_singleton]; simp only at h4; omega, ?_, ?_⟩
        · intro x hx
          simp only [upd_same, List.mem_append, List.mem_singleton] at hx
          rcases hx with hx | rfl
          · exact h5 x hx
          · exact h0
        · intro k hkk
          rw [hkk] at hlen
          simpa [upd_same] using hlen
    · rename_i hkeep
      refine ⟨new ++ [(st.termBuf q ++ [t], st.rewBuf q ++ [r])], ?_, ?_, ?_, ?_⟩
      · simp only [upd_same]; rw [h1, List.append_assoc]
      · simp only [upd_same, flat, List.flatMap_append, List.flatMap_cons, List.flatMap_nil, List.append_nil, List.zip_nil_left]
        rw [hzip, ← h2, List.append_assoc]; rfl
      · intro b hb
        rw [List.mem_append, List.mem_singleton] at hb
        rcases hb with hb | rfl
        · exact h3 b hb
        · refine ⟨by simp only [List.length_append, List.length_singleton]; simp only at h4; omega, st.termBuf q, t, rfl, h5, h6, ?_⟩
          intro h0
          simp only [keep, h0, beq_self_eq_true, Bool.true_and] at hkeep
          cases hbuf : cfg.buffer with
          | none => rw [hbuf] at hkeep; simp at hkeep
          | some k =>
            rw [hbuf] at hkeep
            have := h6 k hbuf
            simp at hkeep this
            congr 1; omega
      · refine ⟨by simp [upd_same], by simp [upd_same], ?_⟩
        intro k hkk
        simp only [upd_same, List.length_nil]
        apply Nat.pos_of_ne_zero
        rintro rfl
        exact hk hkk
  · have hne : p ≠ q := fun h => e h.symm
    simp only [if_neg e, List.append_nil, bufferOne]
    split <;> refine ⟨new, ?_, ?_, h3, ?_⟩ <;> simp only [upd_other _ _ _ _ hne] <;> first | exact h1 | exact h2 | exact ⟨h4, h5, h6⟩

theorem bufferLoop_inv (cfg : Config) (hk : cfg.buffer ≠ some 0) (st0 : State X A R) (p : Nat)
    (l : List (Nat × Nat × R)) (st : State X A R) (obs : List (Nat × R)) (h : BatchInv cfg st0 st p obs) :
    BatchInv cfg st0 (bufferLoop cfg.buffer st l) p
      (obs ++ l.filterMap (fun x => if x.1 = p then some x.2 else none)) := by
  induction l generalizing st obs with
  | nil => simpa [bufferLoop] using h
  | cons x l ih =>
    obtain ⟨q, t, r⟩ := x
    have := ih _ _ (bufferOne_inv cfg hk st0 st p q t r obs h)
    simp only [bufferLoop]
    rw [List.append_assoc] at this
    by_cases e : q = p
    · simpa [e] using this
    · simpa [e] using this

theorem BatchInv.congr (cfg : Config) (st0 st st' : State X A R) (p : Nat) (obs : List (Nat × R))
    (h : BatchInv cfg st0 st p obs) (e : st'.termBuf = st.termBuf ∧ st'.rewBuf = st.rewBuf ∧ st'.flushed = st.flushed) :
    BatchInv cfg st0 st' p obs := by
  simp only [BatchInv] at h ⊢
  rw [e.1, e.2.1, e.2.2]
  exact h

theorem step_batch (cfg : Config) (hk : cfg.buffer ≠ some 0) (st0 st : State X A R) (p : Nat) (obs : List (Nat × R))
    (h : BatchInv cfg st0 st p obs) (o : Op X A R) (ho : o ≠ .reset) :
    BatchInv cfg st0 (st.step cfg o).1 p (obs ++ observedBy p [o] [(st.step cfg o).2]) := by
  cases o with
  | reset => exact absurd rfl ho
  | act ps xs res =>
    simp only [observedBy, List.append_nil]
    apply h.congr
    simp only [State.step]
    split
    · simp
    · split
      · simp
      · cases res with
        | none => simp only; split <;> simp
        | some as => simp only; split <;> split <;> simp
  | observe ps ts rs =>
    simp only [observedBy, List.append_nil, State.step]
    split
    · simpa using h
    · split
      · simpa using h
      · split
        · simp only [Bool.false_eq_true, if_false, List.append_nil]
          exact h.congr _ _ _ _ _ _ ⟨rfl, rfl, rfl⟩
        · generalize hst1 : ({ st with completed := fun p => st.completed p || ps.contains p,
                                       counter := restart (fun p => if ps.contains p then st.counter p + 1 else st.counter p)
                                         (ps.zip ts) } : State X A R) = st1
          have e : st1.termBuf = st.termBuf ∧ st1.rewBuf = st.rewBuf ∧ st1.flushed = st.flushed := by
            rw [← hst1]; exact ⟨rfl, rfl, rfl⟩
          have hr := record_agent cfg.recorder (ps.zip (ts.zip rs)) st1
          simp only [SameAgent] at hr
          split
          · rename_i st2 h2
            rw [h2] at hr
            simp only [Bool.false_eq_true, if_false, List.append_nil]
            exact h.congr _ _ _ _ _ _ ⟨by rw [hr.2.2.1, e.1], by rw [hr.2.2.2.1, e.2.1], by rw [hr.2.2.2.2.1, e.2.2]⟩
          · rename_i st2 h2
            rw [h2] at hr
            simp only [if_true]
            apply bufferLoop_inv cfg hk
            exact h.congr _ _ _ _ _ _ ⟨by rw [hr.2.2.1, e.1], by rw [hr.2.2.2.1, e.2.1], by rw [hr.2.2.2.2.1, e.2.2]⟩

theorem observedBy_cons (p : Nat) (o : Op X A R) (b : Bool) (ops : List (Op X A R)) (bs : List Bool) :
    observedBy p (o :: ops) (b :: bs) = observedBy p [o] [b] ++ observedBy p ops bs := by
  cases o <;> simp [observedBy]

theorem run_batch (cfg : Config) (hk : cfg.buffer ≠ some 0) (st0 : State X A R) (p : Nat) (ops : List (Op X A R))
    (hno : .reset ∉ ops) (st : State X A R) (obs : List (Nat × R)) (h : BatchInv cfg st0 st p obs) :
    BatchInv cfg st0 (st.run cfg ops).1 p (obs ++ observedBy p ops (st.run cfg ops).2) := by
  induction ops generalizing st obs with
  | nil => simpa [State.run, observedBy] using h
  | cons o ops ih =>
    simp only [List.mem_cons, not_or] at hno
    have h1 := step_batch cfg hk st0 st p obs h o (fun e => hno.1 e.symm)
    have h2 := ih hno.2 _ _ h1
    simp only [State.run]
    rw [observedBy_cons, ← List.append_assoc]
    exact h2

/-! ## Whole episodes -/

/-- A finished episode: only the last timestep is a terminal. -/
def Whole (e : List (Step X A R)) : Prop :=
  ∃ xs x, e = xs ++ [x] ∧ (∀ y ∈ xs, y.terminal = 0) ∧ x.terminal ≠ 0

def EpisodesOk (s : Spec X A R) : Prop := (∀ e ∈ s.done, Whole e) ∧ ∀ p, ∀ y ∈ s.cur p, y.terminal = 0

theorem observeOne_episodes (s : Spec X A R) (p t : Nat) (r : R) (h : EpisodesOk s) : EpisodesOk (s.observeOne p t r) := by
  obtain ⟨h1, h2⟩ := h
  unfold Spec.observeOne
  split
  · exact ⟨h1, h2⟩
  · rename_i x a _
    split
    · rename_i ht
      refine ⟨h1, fun q y hy => ?_⟩
      by_cases e : q = p
      · subst e
        simp only [upd_same, List.mem_append, List.mem_singleton] at hy
        rcases hy with hy | rfl
        · exact h2 q y hy
        · exact ht
      · simp only [upd_other _ _ _ _ e] at hy
        exact h2 q y hy
    · rename_i ht
      refine ⟨fun e he => ?_, fun q y hy => ?_⟩
      · rw [List.mem_append, List.mem_singleton] at he
        rcases he with he | rfl
        · exact h1 e he
        · exact ⟨s.cur p, _, rfl, h2 p, ht⟩
      · by_cases e : q = p
        · subst e
          simp [upd_same] at hy
        · simp only [upd_other _ _ _ _ e] at hy
          exact h2 q y hy

theorem run_episodes (cfg : Config) (ops : List (Op X A R)) (s : Spec X A R) (h : EpisodesOk s) :
    EpisodesOk (s.run cfg ops).1 := by
  induction ops generalizing s with
  | nil => exact h
  | cons o ops ih =>
    apply ih
    unfold Spec.step
    split
    · cases o with
      | act ps xs res =>
        cases res with
        | none => exact h
        | some as =>
          obtain ⟨a1, a2, _⟩ := actLoop_cur (ps.zip (xs.zip as)) s
          exact ⟨by simp only [Spec.effect, a2]; exact h.1, by simp only [Spec.effect, a1]; exact h.2⟩
      | observe ps ts rs =>
        simp only [Spec.effect]
        rename_i hacc
        clear hacc
        generalize ps.zip (ts.zip rs) = l
        induction l generalizing s with
        | nil => exact h
        | cons x l ih2 =>
          obtain ⟨p, t, r⟩ := x
          exact ih2 _ (observeOne_episodes s p t r h)
      | reset => exact ⟨h.1, by simp [Spec.effect]⟩
    · exact h

/-! ## When recording starts between episodes -/

/-- `Smooth` without the condition on the start of the recording. -/
def Plain (cfg : Config) (s : Spec X A R) : Op X A R → Prop
  | .act ps _ res => ps.Nodup ∧ ∃ as, res = some as ∧ as.length = ps.length
  | .observe ps ts _ => ps.Nodup ∧ ∀ m, cfg.limit = some m → ∀ x ∈ ps.zip ts, x.2 = 0 → (s.cur x.1).length < m
  | .reset => True

def PlainRun (cfg : Config) (s : Spec X A R) : List (Op X A R) → Prop
  | [] => True
  | o :: ops => (s.accepts cfg o → Plain cfg s o) ∧ PlainRun cfg (s.step cfg o).1 ops

theorem cleanStart_zero (cfg : Config) (rc : Rec) (hrc : cfg.recorder = some rc) (h0 : rc.start = 0)
    (s s' : Spec X A R) : CleanStart cfg s s' := by
  intro rc' h1 h2
  rw [hrc] at h1
  cases h1
  omega

/-- Interactions that do not exist have no history. -/
def Quiet (cfg : Config) (s : Spec X A R) : Prop := ∀ p, cfg.parallel ≤ p → s.pend p = none ∧ s.cur p = []

theorem observeLoop_cur_other (l : List (Nat × Nat × R)) (s : Spec X A R) (q : Nat) (h : q ∉ keys l) :
    (s.observeLoop l).cur q = s.cur q := by
  induction l generalizing s with
  | nil => rfl
  | cons x l ih =>
    obtain ⟨p, t, r⟩ := x
    simp only [keys, List.map_cons, List.mem_cons, not_or] at h
    rw [Spec.observeLoop, ih _ h.2, observeOne_cur_other _ _ _ _ _ h.1]

theorem quiet_step (cfg : Config) (s : Spec X A R) (h : Quiet cfg s) (o : Op X A R) (hpl : s.accepts cfg o → Plain cfg s o) :
    Quiet cfg (s.step cfg o).1 := by
  unfold Spec.step
  split
  · rename_i ha
    cases o with
    | act ps xs res =>
      obtain ⟨hn, as, rfl, hlen⟩ := hpl ha
      obtain ⟨hx, hlt, _⟩ := ha
      have hk : (ps.zip (xs.zip as)).map (·.1) = ps := zip3_fst ps xs as hx hlen
      intro p hp
      have hp' := actLoop_pend (ps.zip (xs.zip as)) s (by rw [hk]; exact hn) p
      have hnot : p ∉ ps := fun hm => by have := hlt p hm; omega
      have : (ps.zip (xs.zip as)).find? (fun x => x.1 == p) = none := by rw [find_none, hk]; exact hnot
      rw [this] at hp'
      simp only [Spec.effect]
      rw [hp', (actLoop_cur _ s).1]
      exact h p hp
    | observe ps ts rs =>
      obtain ⟨_, ht, hr, hlt, _⟩ := ha
      have hk : keys (ps.zip (ts.zip rs)) = ps := zip3_fst ps ts rs ht hr
      intro p hp
      have hnot : p ∉ ps := fun hm => by have := hlt p hm; omega
      simp only [Spec.effect]
      rw [observeLoop_pend, observeLoop_cur_other _ _ _ (by rw [hk]; exact hnot), hk, if_neg hnot]
      exact h p hp
    | reset => intro p _; exact ⟨rfl, rfl⟩
  · exact h

theorem nodup_single (ps : List Nat) (hn : ps.Nodup) (hne : ps ≠ []) (h : ∀ p ∈ ps, p < 1) : ps = [0] := by
  cases ps with
  | nil => exact absurd rfl hne
  | cons p ps =>
    have hp : p = 0 := by have := h p (by simp); omega
    subst hp
    cases ps with
    | nil => rfl
    | cons q ps =>
      have : q = 0 := by have := h q (by simp); omega
      subst this
      simp at hn

/-- A single interaction starts recording between episodes. -/
theorem cleanStart_single (cfg : Config) (h1 : cfg.parallel ≤ 1) (s : Spec X A R) (hq : Quiet cfg s) (ps ts : List Nat)
    (rs : List R) (ha : s.accepts cfg (.observe ps ts rs)) (hn : ps.Nodup) :
    CleanStart cfg s (s.effect (.observe ps ts rs)) := by
  obtain ⟨hne, ht, hr, hlt, hpend⟩ := ha
  have hps : ps = [0] := nodup_single ps hn hne (fun p hp => by have := hlt p hp; omega)
  subst hps
  match ts, rs, ht, hr with
  | [t], [r], _, _ =>
    intro rc _ hlo hhi
    obtain ⟨⟨x, a⟩, hx⟩ := Option.ne_none_iff_exists'.mp (hpend 0 (by simp))
    simp only [Spec.effect, List.zip_cons_cons, List.zip_nil_right, Spec.observeLoop, Spec.observeOne, hx] at hhi ⊢
    by_cases h0 : t = 0
    · simp only [h0, if_true] at hhi
      omega
    · simp only [h0, if_false, List.length_append, List.length_singleton] at hhi ⊢
      refine ⟨by omega, fun p => ?_⟩
      by_cases e : p = 0
      · subst e; simp [upd]
      · simp only [upd_other _ _ _ _ e]
        exact hq p (by omega)

/-- Without a recorder, with recording from the first episode on, or with a single interaction, nothing has to be assumed
about the start of the recording. -/
theorem smooth_of_plain (cfg : Config) (hrec : (∀ rc, cfg.recorder = some rc → rc.start = 0) ∨ cfg.parallel ≤ 1)
    (ops : List (Op X A R)) (s : Spec X A R) (hq : Quiet cfg s) (h : PlainRun cfg s ops) : SmoothRun cfg s ops := by
  induction ops generalizing s with
  | nil => trivial
  | cons o ops ih =>
    obtain ⟨h1, h2⟩ := h
    refine ⟨fun ha => ?_, ih _ (quiet_step cfg s hq o h1) h2⟩
    cases o with
    | act ps xs res => exact h1 ha
    | observe ps ts rs =>
      obtain ⟨hn, hlim⟩ := h1 ha
      refine ⟨hn, hlim, ?_⟩
      rcases hrec with h0 | h0
      · intro rc hrc hlt
        rw [h0 rc hrc] at hlt
        omega
      · exact cleanStart_single cfg h0 s hq ps ts rs ha hn
    | reset => trivial

/-! ## The trace directory -/

/-- The last `m` elements. -/
def newest {α : Type} (m : Option Nat) (l : List α) : List α :=
  match m with
  | none => l
  | some m => l.drop (l.length - m)

/-- The directory holds the newest traces; names grow. -/
def DirInv (rc : Rec) (st : State X A R) : Prop :=
  st.files = newest rc.maxTraces st.written ∧ ∀ t ∈ st.written, t.name < st.numEpisodes

theorem insertFile_last (t : Trace X A R) (l : List (Trace X A R)) (h : ∀ u ∈ l, u.name < t.name) :
    insertFile t l = l ++ [t] := by
  induction l with
  | nil => rfl
  | cons u l ih =>
    have h1 := h u (by simp)
    rw [insertFile, if_neg (by omega), if_neg (by omega), ih (fun v hv => h v (by simp [hv]))]
    rfl

theorem prune_newest {α : Type} (m : Option Nat) (hm : m ≠ some 0 ∧ m ≠ some 1) (l : List α) (x : α) :
    prune m (newest m l) ++ [x] = newest m (l ++ [x]) := by
  match m with
  | none => rfl
  | some 0 => simp at hm
  | some 1 => simp at hm
  | some (m + 2) =>
    simp only [prune, newest, List.length_drop, List.length_append, List.length_singleton, List.drop_drop]
    split
    · rw [List.drop_append_of_le_length (by omega)]
      congr 2
      omega
    · rw [List.drop_append_of_le_length (by omega)]
      congr 2
      omega

theorem newest_subset {α : Type} (m : Option Nat) (l : List α) (x : α) (h : x ∈ newest m l) : x ∈ l := by
  cases m with
  | none => exact h
  | some m => exact List.mem_of_mem_drop h

theorem prune_subset {α : Type} (m : Option Nat) (l : List α) (x : α) (h : x ∈ prune m l) : x ∈ l := by
  unfold prune at h
  split at h
  · exact h
  · exact List.mem_of_mem_drop h
  · exact h
  · split at h
    · exact List.mem_of_mem_drop h
    · exact h

/-- A write keeps the directory in order if the previous names are smaller. -/
theorem writeTrace_dir (rc : Rec) (hm : rc.maxTraces ≠ some 0 ∧ rc.maxTraces ≠ some 1) (st : State X A R)
    (h1 : st.files = newest rc.maxTraces st.written) (h2 : ∀ t ∈ st.written, t.name + 1 < st.numEpisodes)
    (h3 : 0 < st.numEpisodes) : DirInv rc (writeTrace rc st) := by
  unfold writeTrace
  split
  · exact ⟨h1, fun t ht => by have := h2 t ht; omega⟩
  · refine ⟨?_, ?_⟩
    · simp only
      rw [insertFile_last, h1, prune_newest _ hm]
      intro u hu
      have hu := prune_subset _ _ _ hu
      rw [h1] at hu
      have := h2 u (newest_subset _ _ _ hu)
      simp only
      omega
    · intro t ht
      simp only [List.mem_append, List.mem_singleton] at ht
      rcases ht with ht | rfl
      · have := h2 t ht; simp only; omega
      · simp only; omega

theorem recordLoop_dir (rc : Rec) (hm : rc.maxTraces ≠ some 0 ∧ rc.maxTraces ≠ some 1) (l : List (Nat × Nat × R))
    (st : State X A R) (h : DirInv rc st) : DirInv rc (recordLoop rc st l).1 := by
  induction l generalizing st with
  | nil => exact h
  | cons x l ih =>
    obtain ⟨p, t, r⟩ := x
    obtain ⟨h1, h2⟩ := h
    simp only [recordLoop]
    split
    · exact ih _ ⟨h1, h2⟩
    · split
      · exact ⟨h1, fun t ht => by have := h2 t ht; simp only; omega⟩
      · apply ih
        apply writeTrace_dir rc hm
        · exact h1
        · intro t ht; have := h2 t ht; simp only [closeEpisode]; omega
        · simp only [closeEpisode]; omega

theorem step_dir (cfg : Config) (rc : Rec) (hrc : cfg.recorder = some rc)
    (hm : rc.maxTraces ≠ some 0 ∧ rc.maxTraces ≠ some 1) (st : State X A R) (h : DirInv rc st) (o : Op X A R) :
    DirInv rc (st.step cfg o).1 := by
  cases o with
  | reset => exact h
  | act ps xs res =>
    simp only [State.step]
    split
    · exact h
    · split
      · exact h
      · cases res with
        | none => simp only; split <;> exact h
        | some as => simp only; split <;> split <;> exact h
  | observe ps ts rs =>
    simp only [State.step]
    split
    · exact h
    · split
      · exact h
      · split
        · exact h
        · generalize hst1 : ({ st with completed := fun p => st.completed p || ps.contains p,
                                       counter := restart (fun p => if ps.contains p then st.counter p + 1 else st.counter p)
                                         (ps.zip ts) } : State X A R) = st1
          have hd1 : DirInv rc st1 := by rw [← hst1]; exact h
          have hd : DirInv rc (record cfg.recorder st1 (ps.zip (ts.zip rs))).1 := by
            rw [hrc]
            simp only [record]
            split
            · exact ⟨hd1.1, fun t ht => by have := hd1.2 t ht; simp only; omega⟩
            · exact recordLoop_dir rc hm _ _ hd1
          split
          · rename_i st2 h2
            rw [h2] at hd
            exact hd
          · rename_i st2 h2
            rw [h2] at hd
            obtain ⟨_, _, _, hsame, _⟩ := bufferLoop_facts cfg.buffer (ps.zip (ts.zip rs)) st2
            simp only [SameRec] at hsame
            refine ⟨?_, ?_⟩
            · rw [hsame.2.2.2.2.2.2.2.2.2.1, hsame.2.2.2.2.2.2.2.2.2.2]; exact hd.1
            · rw [hsame.2.2.2.2.2.2.2.2.2.2, hsame.1]; exact hd.2

theorem run_dir (cfg : Config) (rc : Rec) (hrc : cfg.recorder = some rc)
    (hm : rc.maxTraces ≠ some 0 ∧ rc.maxTraces ≠ some 1) (ops : List (Op X A R)) (st : State X A R) (h : DirInv rc st) :
    DirInv rc (st.run cfg ops).1 := by
  induction ops generalizing st with
  | nil => exact h
  | cons o ops ih => exact ih _ (step_dir cfg rc hrc hm st h o)

end Verif.Agent
