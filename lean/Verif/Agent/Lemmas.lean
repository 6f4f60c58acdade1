import Verif.Agent.Spec

/-! # Helper lemmas: the interface model follows the specification -/

namespace Verif.Agent

variable {X A R : Type}

theorem upd_same {β : Type} (f : Nat → β) (p : Nat) (x : β) : upd f p x p = x := by simp [upd]

theorem upd_other {β : Type} (f : Nat → β) (p q : Nat) (x : β) (h : q ≠ p) : upd f p x q = f q := by simp [upd, h]

/-! ## The specification's loops -/

def keys (l : List (Nat × Nat × R)) : List Nat := l.map (·.1)

def terminals (l : List (Nat × Nat × R)) : Nat := l.countP fun x => decide (x.2.1 > 0)

theorem observeOne_pend (s : Spec X A R) (p t : Nat) (r : R) (q : Nat) :
    (s.observeOne p t r).pend q = if q = p then none else s.pend q := by
  unfold Spec.observeOne
  split
  · rename_i h
    split
    · rename_i e; rw [e, h]
    · rfl
  · split <;> simp [upd]

theorem observeOne_cur_other (s : Spec X A R) (p t : Nat) (r : R) (q : Nat) (h : q ≠ p) :
    (s.observeOne p t r).cur q = s.cur q := by
  unfold Spec.observeOne
  split
  · rfl
  · split <;> simp [upd, h]

theorem observeOne_acts (s : Spec X A R) (p t : Nat) (r : R) : (s.observeOne p t r).acts = s.acts := by
  unfold Spec.observeOne
  split
  · rfl
  · split <;> rfl

theorem observeLoop_pend (l : List (Nat × Nat × R)) (s : Spec X A R) (q : Nat) :
    (s.observeLoop l).pend q = if q ∈ keys l then none else s.pend q := by
  induction l generalizing s with
  | nil => simp [Spec.observeLoop, keys]
  | cons x l ih =>
    obtain ⟨p, t, r⟩ := x
    simp only [Spec.observeLoop, ih, observeOne_pend, keys, List.map_cons, List.mem_cons]
    grind

theorem observeLoop_acts (l : List (Nat × Nat × R)) (s : Spec X A R) : (s.observeLoop l).acts = s.acts := by
  induction l generalizing s with
  | nil => rfl
  | cons x l ih => obtain ⟨p, t, r⟩ := x; simp only [Spec.observeLoop, ih, observeOne_acts]

theorem observeLoop_done (l : List (Nat × Nat × R)) (s : Spec X A R) (hn : (keys l).Nodup)
    (hp : ∀ p ∈ keys l, s.pend p ≠ none) : (s.observeLoop l).done.length = s.done.length + terminals l := by
  induction l generalizing s with
  | nil => simp [Spec.observeLoop, terminals]
  | cons x l ih =>
    obtain ⟨p, t, r⟩ := x
    simp only [keys, List.map_cons, List.nodup_cons, List.mem_cons, forall_eq_or_imp] at hn hp
    rw [Spec.observeLoop, ih _ hn.2]
    · obtain ⟨⟨x, a⟩, hx⟩ := Option.ne_none_iff_exists'.mp hp.1
      simp only [terminals, List.countP_cons, Spec.observeOne, hx]
      split
      · rename_i h; simp [h]
      · rename_i h; simp [Nat.pos_of_ne_zero h]; omega
    · intro q hq
      rw [observeOne_pend, if_neg]
      · exact hp.2 q hq
      · rintro rfl; exact hn.1 hq

/-- The counters follow the lengths of the running episodes. -/
theorem restart_cur (l : List (Nat × Nat × R)) (s : Spec X A R) (c : Nat → Nat) (hn : (keys l).Nodup)
    (hp : ∀ p ∈ keys l, s.pend p ≠ none)
    (hc : ∀ q, c q = (s.cur q).length + if q ∈ keys l then 1 else 0) (q : Nat) :
    restart c (l.map fun x => (x.1, x.2.1)) q = ((s.observeLoop l).cur q).length := by
  induction l generalizing s c with
  | nil => simpa [restart, Spec.observeLoop, keys] using hc q
  | cons x l ih =>
    obtain ⟨p, t, r⟩ := x
    simp only [keys, List.map_cons, List.nodup_cons, List.mem_cons, forall_eq_or_imp] at hn hp hc
    obtain ⟨⟨x, a⟩, hx⟩ := Option.ne_none_iff_exists'.mp hp.1
    simp only [List.map_cons, restart, Spec.observeLoop]
    apply ih _ _ hn.2
    · intro q hq
      rw [observeOne_pend, if_neg]
      · exact hp.2 q hq
      · rintro rfl; exact hn.1 hq
    · intro q
      by_cases e : q = p
      · subst e
        have h1 := hc q
        simp only [true_or, if_true] at h1
        have h2 : ¬ q ∈ keys l := hn.1
        simp only [if_neg h2, Spec.observeOne, hx]
        by_cases ht : t = 0
        · simp [ht, upd, h1]
        · simp [ht, upd, Nat.pos_of_ne_zero ht]
      · rw [observeOne_cur_other s p t r q e]
        have h1 := hc q
        simp only [e, false_or] at h1
        split
        · rw [upd_other _ _ _ _ e]; exact h1
        · exact h1

theorem actLoop_pend (l : List (Nat × X × A)) (s : Spec X A R) (hn : (l.map (·.1)).Nodup) (q : Nat) :
    (s.actLoop l).pend q = match l.find? (fun x => x.1 == q) with | some x => some x.2 | none => s.pend q := by
  induction l generalizing s with
  | nil => simp [Spec.actLoop]
  | cons x l ih =>
    obtain ⟨p, x, a⟩ := x
    simp only [List.map_cons, List.nodup_cons] at hn
    rw [Spec.actLoop, ih _ hn.2]
    simp only [List.find?_cons]
    by_cases e : p = q
    · subst e
      have : l.find? (fun x => x.1 == p) = none := by
        rw [List.find?_eq_none]
        intro y hy
        simp only [beq_iff_eq]
        intro e; subst e
        exact hn.1 (List.mem_map_of_mem hy)
      simp [this, upd]
    · have h1 : (p == q) = false := by simpa using e
      simp only [h1, upd]
      cases l.find? (fun x => x.1 == q) with
      | some y => rfl
      | none => simp [show ¬ q = p from fun h => e h.symm]

theorem actLoop_cur (l : List (Nat × X × A)) (s : Spec X A R) : (s.actLoop l).cur = s.cur ∧ (s.actLoop l).done = s.done ∧
    (s.actLoop l).acts = s.acts + l.length := by
  induction l generalizing s with
  | nil => simp [Spec.actLoop]
  | cons x l ih =>
    obtain ⟨p, x, a⟩ := x
    obtain ⟨h1, h2, h3⟩ := ih { s with pend := upd s.pend p (some (x, a)), acts := s.acts + 1 }
    simp only [Spec.actLoop, List.length_cons]
    exact ⟨h1, h2, by rw [h3]; show s.acts + 1 + l.length = _; omega⟩

/-! ## The agent's part -/

/-- Alternation check and counters agree with the specification. -/
def CoreRel (st : State X A R) (s : Spec X A R) : Prop :=
  (∀ p, st.completed p = (s.pend p).isNone) ∧ (∀ p, st.counter p = (s.cur p).length) ∧
  st.timesteps = s.acts ∧ st.episodes = s.done.length

/-- The same values outside the recorder. -/
def SameAgent (a b : State X A R) : Prop :=
  a.completed = b.completed ∧ a.counter = b.counter ∧ a.termBuf = b.termBuf ∧ a.rewBuf = b.rewBuf ∧
  a.flushed = b.flushed ∧ a.timesteps = b.timesteps ∧ a.episodes = b.episodes

/-- The same values in the recorder. -/
def SameRec (a b : State X A R) : Prop :=
  a.numEpisodes = b.numEpisodes ∧ a.bufS = b.bufS ∧ a.bufA = b.bufA ∧ a.bufT = b.bufT ∧ a.bufR = b.bufR ∧
  a.recS = b.recS ∧ a.recA = b.recA ∧ a.recT = b.recT ∧ a.recR = b.recR ∧ a.files = b.files ∧ a.written = b.written

theorem bufferOne_facts (buffer : Option Nat) (st : State X A R) (p t : Nat) (r : R) :
    let st' := bufferOne buffer st p t r
    st'.completed = st.completed ∧ st'.counter = st.counter ∧ st'.timesteps = st.timesteps ∧ SameRec st' st ∧
      st'.episodes = st.episodes + if t > 0 then 1 else 0 := by
  simp only [bufferOne]
  split
  · rename_i h
    simp only [keep, Bool.and_eq_true, beq_iff_eq] at h
    simp [SameRec, h.1]
  · simp [SameRec]

theorem bufferLoop_facts (buffer : Option Nat) (l : List (Nat × Nat × R)) (st : State X A R) :
    let st' := bufferLoop buffer st l
    st'.completed = st.completed ∧ st'.counter = st.counter ∧ st'.timesteps = st.timesteps ∧ SameRec st' st ∧
      st'.episodes = st.episodes + terminals l := by
  induction l generalizing st with
  | nil => simp [bufferLoop, terminals, SameRec]
  | cons x l ih =>
    obtain ⟨p, t, r⟩ := x
    obtain ⟨a1, a2, a3, a4, a5⟩ := bufferOne_facts buffer st p t r
    obtain ⟨b1, b2, b3, b4, b5⟩ := ih (bufferOne buffer st p t r)
    refine ⟨b1.trans a1, b2.trans a2, b3.trans a3, ?_, ?_⟩
    · simp only [SameRec] at a4 b4 ⊢
      simp only [bufferLoop]
      grind
    · simp only [bufferLoop, b5, a5, terminals, List.countP_cons, decide_eq_true_eq]
      omega

/-! ## The recorder's part -/

/-- The recorder's buffers while it is recording. -/
def BufActive (st : State X A R) (s : Spec X A R) : Prop :=
  ∀ p, st.bufS p = (s.cur p).map (·.state) ++ (s.pend p).toList.map (·.1) ∧
    st.bufA p = (s.cur p).map (·.action) ++ (s.pend p).toList.map (·.2) ∧
    st.bufT p = (s.cur p).map (·.terminal) ∧ st.bufR p = (s.cur p).map (·.reward)

def BufEmpty (st : State X A R) : Prop := ∀ p, st.bufS p = [] ∧ st.bufA p = [] ∧ st.bufT p = [] ∧ st.bufR p = []

def BufRel (rc : Rec) (st : State X A R) (s : Spec X A R) : Prop :=
  st.numEpisodes = s.done.length ∧ (rc.start ≤ s.done.length → BufActive st s) ∧ (s.done.length < rc.start → BufEmpty st)

/-- Recorded episodes and written traces. -/
def WriteRel (rc : Rec) (st : State X A R) (s : Spec X A R) : Prop :=
  let eps := s.done.drop rc.start
  let open' := eps.drop (eps.length / rc.frequency * rc.frequency)
  st.recS = open'.map (·.map (·.state)) ∧ st.recA = open'.map (·.map (·.action)) ∧
  st.recT = open'.map (·.map (·.terminal)) ∧ st.recR = open'.map (·.map (·.reward)) ∧
  st.written = tracesOf rc.start rc.frequency eps

theorem flatten_map_map {α β : Type} (f : α → β) (l : List (List α)) : (l.map (·.map f)).flatten = l.flatten.map f := by
  induction l with
  | nil => rfl
  | cons a l ih => simp

/-- One more episode. -/
theorem tracesOf_snoc_open (start f : Nat) (hf : 0 < f) (eps : List (List (Step X A R))) (e : List (Step X A R))
    (h : (eps.length + 1) % f ≠ 0) :
    tracesOf start f (eps ++ [e]) = tracesOf start f eps ∧
      (eps ++ [e]).drop ((eps ++ [e]).length / f * f) = eps.drop (eps.length / f * f) ++ [e] := by
  have hd : (eps.length + 1) / f = eps.length / f := by
    rw [Nat.succ_div, if_neg (fun hdvd => h (Nat.mod_eq_zero_of_dvd hdvd)), Nat.add_zero]
  have hle : eps.length / f * f ≤ eps.length := Nat.div_mul_le_self _ _
  constructor
  · simp only [tracesOf, List.length_append, List.length_singleton, hd]
    apply List.map_congr_left
    intro k hk
    have hk' : k + 1 ≤ eps.length / f := List.mem_range.mp hk
    have h1 : (k + 1) * f ≤ eps.length := Nat.le_trans (Nat.mul_le_mul_right f hk') hle
    rw [Nat.add_mul, Nat.one_mul] at h1
    rw [List.drop_append_of_le_length (by omega), List.take_append_of_le_length (by rw [List.length_drop]; omega)]
  · rw [List.length_append, List.length_singleton, hd, List.drop_append_of_le_length hle]

theorem tracesOf_snoc_full (start f : Nat) (hf : 0 < f) (eps : List (List (Step X A R))) (e : List (Step X A R))
    (h : (eps.length + 1) % f = 0) :
    tracesOf start f (eps ++ [e]) = tracesOf start f eps ++
        [traceOf (start + (eps.length + 1) - 1) (eps.drop (eps.length / f * f) ++ [e])] ∧
      (eps ++ [e]).drop ((eps ++ [e]).length / f * f) = [] := by
  have hd : (eps.length + 1) / f = eps.length / f + 1 := by
    rw [Nat.succ_div, if_pos (Nat.dvd_of_mod_eq_zero h)]
  have hle : eps.length / f * f ≤ eps.length := Nat.div_mul_le_self _ _
  have hex : (eps.length + 1) / f * f = eps.length + 1 := Nat.div_mul_cancel (Nat.dvd_of_mod_eq_zero h)
  constructor
  · simp only [tracesOf, List.length_append, List.length_singleton, hd, List.range_succ, List.map_append, List.map_cons,
      List.map_nil]
    congr 1
    · apply List.map_congr_left
      intro k hk
      have hk' : k + 1 ≤ eps.length / f := List.mem_range.mp hk
      have h1 : (k + 1) * f ≤ eps.length := Nat.le_trans (Nat.mul_le_mul_right f hk') hle
      rw [Nat.add_mul, Nat.one_mul] at h1
      rw [List.drop_append_of_le_length (by omega), List.take_append_of_le_length (by rw [List.length_drop]; omega)]
    · rw [hd] at hex
      rw [hex, List.drop_append_of_le_length hle, List.take_of_length_le]
      simp only [List.length_append, List.length_drop, List.length_singleton]
      rw [Nat.add_mul, Nat.one_mul] at hex
      omega
  · rw [List.length_append, List.length_singleton, hex]
    simp

theorem drop_snoc {α : Type} (n : Nat) (l : List α) (x : α) (h : n ≤ l.length) : (l ++ [x]).drop n = l.drop n ++ [x] :=
  List.drop_append_of_le_length h

/-- The state after taking down the values of an observation that ends an episode. -/
def taken (st : State X A R) (p t : Nat) (r : R) : State X A R :=
  { st with bufT := upd st.bufT p (st.bufT p ++ [t]), bufR := upd st.bufR p (st.bufR p ++ [r]),
            numEpisodes := st.numEpisodes + 1 }

theorem writeTrace_same (rc : Rec) (u : State X A R) :
    SameAgent (writeTrace rc u) u ∧ (writeTrace rc u).numEpisodes = u.numEpisodes := by
  simp only [writeTrace]; split <;> simp [SameAgent]

/-- One observed value, while recording. -/
theorem record_one (rc : Rec) (st : State X A R) (s : Spec X A R) (p t : Nat) (r : R) (l : List (Nat × Nat × R))
    (hs : rc.start ≤ s.done.length) (hnum : st.numEpisodes = s.done.length) (hb : BufActive st s)
    (hp : s.pend p ≠ none) :
    ∃ st', recordLoop rc st ((p, t, r) :: l) = recordLoop rc st' l ∧ SameAgent st' st ∧
      st'.numEpisodes = (s.observeOne p t r).done.length ∧ rc.start ≤ (s.observeOne p t r).done.length ∧
      BufActive st' (s.observeOne p t r) ∧
      (0 < rc.frequency → WriteRel rc st s → WriteRel rc st' (s.observeOne p t r)) := by
  obtain ⟨⟨x, a⟩, hx⟩ := Option.ne_none_iff_exists'.mp hp
  obtain ⟨b1, b2, b3, b4⟩ := hb p
  rw [hx] at b1 b2
  simp only [Option.toList_some, List.map_cons, List.map_nil] at b1 b2
  by_cases ht : t = 0
  · refine ⟨{ st with bufT := upd st.bufT p (st.bufT p ++ [t]), bufR := upd st.bufR p (st.bufR p ++ [r]) }, ?_, ?_, ?_, ?_, ?_, ?_⟩
    · simp only [recordLoop, ht, if_true]
    · simp [SameAgent]
    · simpa [Spec.observeOne, hx, ht] using hnum
    · simpa [Spec.observeOne, hx, ht] using hs
    · intro q
      by_cases e : q = p
      · subst e
        simp [Spec.observeOne, hx, ht, upd, b1, b2, b3, b4]
      · simpa [Spec.observeOne, hx, ht, upd, e] using hb q
    · intro _ hw
      simpa [WriteRel, Spec.observeOne, hx, ht] using hw
  · refine ⟨writeTrace rc (closeEpisode p (taken st p t r)), ?_, ?_, ?_, ?_, ?_, ?_⟩
    · simp [recordLoop, ht, b1, b2, taken]
    · obtain ⟨g1, -⟩ := writeTrace_same rc (closeEpisode p (taken st p t r))
      simpa [SameAgent, closeEpisode, taken] using g1
    · obtain ⟨-, g2⟩ := writeTrace_same rc (closeEpisode p (taken st p t r))
      rw [g2]
      simp [closeEpisode, taken, Spec.observeOne, hx, ht, hnum]
    · simp only [Spec.observeOne, hx, ht, if_false, List.length_append, List.length_singleton]; omega
    · intro q
      have hsame : ∀ u : State X A R, (writeTrace rc u).bufS = u.bufS ∧ (writeTrace rc u).bufA = u.bufA ∧
          (writeTrace rc u).bufT = u.bufT ∧ (writeTrace rc u).bufR = u.bufR := by
        intro u; simp only [writeTrace]; split <;> simp
      obtain ⟨e1, e2, e3, e4⟩ := hsame (closeEpisode p (taken st p t r))
      rw [e1, e2, e3, e4]
      by_cases e : q = p
      · subst e
        simp [closeEpisode, taken, Spec.observeOne, hx, ht, upd]
      · simpa [closeEpisode, taken, Spec.observeOne, hx, ht, upd, e] using hb q
    · intro hf ⟨w1, w2, w3, w4, w5⟩
      have hlen : (s.done.drop rc.start).length = s.done.length - rc.start := List.length_drop
      have hdone : (s.observeOne p t r).done.drop rc.start =
          s.done.drop rc.start ++ [s.cur p ++ [⟨x, a, t, r⟩]] := by
        simp only [Spec.observeOne, hx, ht, if_false]
        exact drop_snoc _ _ _ hs
      simp only [WriteRel, hdone]
      have hn1 : st.numEpisodes + 1 - rc.start = (s.done.drop rc.start).length + 1 := by rw [hnum, hlen]; omega
      by_cases hm : ((s.done.drop rc.start).length + 1) % rc.frequency = 0
      · obtain ⟨t1, t2⟩ := tracesOf_snoc_full rc.start rc.frequency hf (s.done.drop rc.start)
          (s.cur p ++ [⟨x, a, t, r⟩]) hm
        rw [t1, t2]
        simp only [writeTrace, closeEpisode, taken, hn1, hm, ne_eq, not_true, if_false, List.map_nil, true_and]
        simp only [w1, w2, w3, w4, w5, upd_same, b1, b2, b3, b4, List.append_cancel_left_eq, List.cons.injEq, and_true]
        simp only [traceOf, Trace.mk.injEq, List.flatten_append, flatten_map_map, List.map_append]
        simp only [List.flatten_cons, List.flatten_nil, List.append_nil, List.map_append, List.map_cons, List.map_nil,
          and_true]
        rw [hlen, hnum]; omega
      · obtain ⟨t1, t2⟩ := tracesOf_snoc_open rc.start rc.frequency hf (s.done.drop rc.start)
          (s.cur p ++ [⟨x, a, t, r⟩]) hm
        rw [t1, t2]
        simp only [writeTrace, closeEpisode, taken, hn1, hm, ne_eq, not_false_eq_true, if_true]
        simp [w1, w2, w3, w4, w5, upd_same, b1, b2, b3, b4]

theorem record_loop (rc : Rec) (l : List (Nat × Nat × R)) (st : State X A R) (s : Spec X A R)
    (hn : (keys l).Nodup) (hp : ∀ p ∈ keys l, s.pend p ≠ none)
    (hs : rc.start ≤ s.done.length) (hnum : st.numEpisodes = s.done.length) (hb : BufActive st s) :
    ∃ st', recordLoop rc st l = (st', true) ∧ SameAgent st' st ∧ st'.numEpisodes = (s.observeLoop l).done.length ∧
      rc.start ≤ (s.observeLoop l).done.length ∧ BufActive st' (s.observeLoop l) ∧
      (0 < rc.frequency → WriteRel rc st s → WriteRel rc st' (s.observeLoop l)) := by
  induction l generalizing st s with
  | nil => exact ⟨st, rfl, by simp [SameAgent], hnum, hs, hb, fun _ h => h⟩
  | cons x l ih =>
    obtain ⟨p, t, r⟩ := x
    simp only [keys, List.map_cons, List.nodup_cons, List.mem_cons, forall_eq_or_imp] at hn hp
    obtain ⟨st1, e1, e2, e3, e4, e5, e6⟩ := record_one rc st s p t r l hs hnum hb hp.1
    obtain ⟨st2, f1, f2, f3, f4, f5, f6⟩ := ih st1 (s.observeOne p t r) hn.2 (by
      intro q hq
      rw [observeOne_pend, if_neg]
      · exact hp.2 q hq
      · rintro rfl; exact hn.1 hq) e4 e3 e5
    refine ⟨st2, by rw [e1, f1], ?_, f3, f4, f5, fun hf hw => f6 hf (e6 hf hw)⟩
    simp only [SameAgent] at e2 f2 ⊢
    grind

end Verif.Agent
