import Verif.Memory.Refine

/-! Reset, runs of operations, and windows of the log. -/

namespace Verif.Memory

variable {α : Type}

theorem termSlots_concat (cap p : Nat) (A : List Nat) (c : Nat) :
    termSlots cap p (A ++ [c]) = termSlots cap p A ++ (if c = 0 then [] else [(p + A.length) % cap]) := by
  rw [termSlots_append]
  simp only [termSlots]

theorem scatter_one {β : Type} (l : List β) (i : Nat) (x : β) (h : i < l.length) :
    scatter l [(i, x)] = some (l.set i x) := by
  simp [scatter, h]

theorem Rep.reset {m : Bool} {q : Queue α} {W : List (Step α)} (h : Rep m q W) :
    ∃ q', q.reset = .ok q' ∧ q'.cap = q.cap ∧ q'.bi = q.bi ∧
      Rep m q' (if m then closeLast W else W) := by
  have hne := h.ne_nil
  have hlast := h.last_term
  have hcap := h.capPos
  have hW : W = W.dropLast ++ [W.getLast hne] := (List.dropLast_concat_getLast hne).symm
  have hlenD : W.dropLast.length + 1 = q.cap := by
    have := h.lenW; simp; omega
  -- the final consistency checks pass for every represented window
  have checks : ∀ (q' : Queue α) (V : List (Step α)), Rep m q' V →
      (∃ ts, gather q'.term (q'.ti.take (q'.ec + 1).toNat) = some ts ∧
        ts.all (fun t => decide (0 < t)) = true) ∧
      ((m = true → ∀ hV : V ≠ [], (V.getLast hV).2 ≠ 0) → (countNonzero q'.term : Int) = q'.ec + 1) := by
    intro q' V hr
    constructor
    · rw [hr.tiEq]
      have hagree := hr.term
      cases m with
      | false =>
        refine ⟨_, gather_termSlots hagree, ?_⟩
        simp only [List.all_filter, List.all_eq_true]
        intro x _
        simp; omega
      | true =>
        have hVne := hr.ne_nil
        have hV : V = V.dropLast ++ [V.getLast hVne] := (List.dropLast_concat_getLast hVne).symm
        by_cases hz : (V.getLast hVne).2 = 0
        · -- marker present at the end but not listed
          have e1 : V.map Prod.snd = V.dropLast.map Prod.snd ++ [0] := by
            conv => lhs; rw [hV]
            simp [hz]
          have e2 : storedCodes true (V.map Prod.snd) = V.dropLast.map Prod.snd ++ [3] := by
            rw [e1]; simp [storedCodes, markLast]
          rw [e2] at hagree
          rw [e1, termSlots_concat]
          simp only [if_true, List.append_nil]
          refine ⟨_, gather_termSlots hagree.left, ?_⟩
          simp only [List.all_filter, List.all_eq_true]
          intro x _
          simp; omega
        · have e2 : storedCodes true (V.map Prod.snd) = V.map Prod.snd := by
            have e1 : V.map Prod.snd = V.dropLast.map Prod.snd ++ [(V.getLast hVne).2] := by
              conv => lhs; rw [hV]
              simp
            rw [e1]
            simp [storedCodes, markLast, hz]
          rw [e2] at hagree
          refine ⟨_, gather_termSlots hagree, ?_⟩
          simp only [List.all_filter, List.all_eq_true]
          intro x _
          simp; omega
    · intro hl
      have hVne := hr.ne_nil
      have e2 : storedCodes m (V.map Prod.snd) = V.map Prod.snd := by
        cases m with
        | false => rfl
        | true =>
          have hz := hl rfl hVne
          have hV : V = V.dropLast ++ [V.getLast hVne] := (List.dropLast_concat_getLast hVne).symm
          have e1 : V.map Prod.snd = V.dropLast.map Prod.snd ++ [(V.getLast hVne).2] := by
            conv => lhs; rw [hV]
            simp
          rw [e1]
          simp [storedCodes, markLast, hz]
      have hagree := hr.term
      rw [e2] at hagree
      rw [hagree.countNonzero_eq hr.capPos hr.lenT (by simp [hr.lenW]), hr.ecEq]
  have fin : ∀ (q' : Queue α) (V : List (Step α)), Rep m q' V →
      (m = true → ∀ hV : V ≠ [], (V.getLast hV).2 ≠ 0) →
      (match gather q'.term (q'.ti.take (q'.ec + 1).toNat) with
        | none => (.error "gather: index out of range" : Except String (Queue α))
        | some ts =>
          if ts.all (fun t => decide (0 < t)) ≠ true then .error "Memory consistency check." else
          if (countNonzero q'.term : Int) ≠ q'.ec + 1 then .error "Memory consistency check." else
          .ok q') = .ok q' := by
    intro q' V hr hl
    obtain ⟨⟨ts, h1, h2⟩, h3⟩ := checks q' V hr
    rw [h1]
    simp only
    rw [if_neg (by simp [h2]), if_neg (by simp [h3 hl])]
  unfold Queue.reset
  simp only
  rw [hlast]
  simp only
  by_cases hm : m = true ∧ (W.getLast hne).2 = 0
  · obtain ⟨rfl, hz⟩ := hm
    have hlt : q.lastIndex < q.term.length := by
      rw [h.lenT, lastIndex_eq hcap]; exact Nat.mod_lt _ hcap
    have hcnt : countNonzero (W.map Prod.snd) ≤ q.cap := by
      have := countNonzero_le (W.map Prod.snd)
      simp [h.lenW] at this; omega
    have hec : (q.ec + 1).toNat = countNonzero (W.map Prod.snd) := by
      have := h.ecEq; omega
    have hite : (if true = true ∧ (W.getLast hne).2 = 0 then 3 else (W.getLast hne).2) = 3 :=
      if_pos ⟨rfl, hz⟩
    rw [hite, if_pos rfl, scatter_one _ _ _ hlt, scatter_one _ _ _ (by rw [h.lenTi]; omega)]
    simp only
    have e1 : W.map Prod.snd = W.dropLast.map Prod.snd ++ [0] := by
      conv => lhs; rw [hW]
      simp [hz]
    have hclose : closeLast W = W.dropLast ++ [((W.getLast hne).1, 2)] := by
      simp only [closeLast, List.getLast?_eq_some_getLast hne, hz, if_true]
    have hrep : Rep true { q with
        term := q.term.set q.lastIndex 2
        ti := q.ti.set (q.ec + 1).toNat q.lastIndex
        ec := q.ec + 1 } (closeLast W) := by
      refine ⟨hcap, ?_, h.lenV, by simpa using h.lenT, by simpa using h.lenTi, ?_, ?_, ?_, ?_, ?_⟩
      · rw [hclose]; simp at hlenD ⊢; omega
      · intro x hx
        rw [hclose] at hx
        rcases List.mem_append.mp hx with hx | hx
        · exact h.codes x (List.dropLast_subset _ hx)
        · simp at hx; simp [hx]
      · have : (closeLast W).map Prod.fst = W.map Prod.fst := by
          rw [hclose]
          conv => rhs; rw [hW]
          simp
        rw [this]; exact h.vals
      · simp only [hclose, List.map_append, List.map_cons, List.map_nil, storedCodes, if_true, markLast]
        simp only [List.getLast?_append, List.getLast?_singleton, Option.some_or, List.dropLast_concat]
        have ht := h.term
        simp only [storedCodes, if_true, e1, markLast] at ht
        simp only [List.getLast?_append, List.getLast?_singleton, Option.some_or, List.dropLast_concat] at ht
        rw [lastIndex_eq hcap]
        exact ht.setLast h.lenT hcap (by rw [List.length_map]; exact hlenD)
      · simp only
        have htake : q.ti.take (q.ec + 1).toNat = termSlots q.cap q.bi (W.dropLast.map Prod.snd) := by
          rw [h.tiEq, e1, termSlots_concat]; simp
        have : (q.ec + 1 + 1).toNat = (q.ec + 1).toNat + 1 := by have := h.ecEq; omega
        rw [this, hclose, List.map_append, List.map_cons, List.map_nil, termSlots_concat, ← htake]
        rw [if_neg (by simp), List.take_add_one, List.take_set_of_le (Nat.le_refl _)]
        rw [List.getElem?_set_self (by rw [h.lenTi]; omega), lastIndex_eq hcap]
        simp only [Option.toList]
        congr 3
        simp at hlenD ⊢; omega
      · simp only
        rw [hclose, List.map_append, countNonzero_append]
        have he := h.ecEq
        rw [e1, countNonzero_append] at he
        simp [countNonzero] at he ⊢
        omega
    have hf := fin _ _ hrep (by
      intro _ hV
      simp [hclose])
    exact ⟨_, hf, rfl, rfl, by simpa using hrep⟩
  · have hle := h.codes _ (List.getLast_mem hne)
    rw [if_neg hm, if_neg (by omega)]
    simp only
    have hf := fin q W h (by
      intro hm' hV hz
      exact hm ⟨hm', hz⟩)
    refine ⟨q, hf, rfl, rfl, ?_⟩
    cases m with
    | false => simpa using h
    | true =>
      have : closeLast W = W := by
        simp only [true_and] at hm
        simp only [closeLast, List.getLast?_eq_some_getLast hne, hm, if_false]
      simpa [this] using h

/-- The virtual entries before the first stored timestep: zero records, the last one an episode end
(`queue.py` lines 67-71). -/
def initW (cap : Nat) (z : α) : List (Step α) := List.replicate (cap - 1) (z, 0) ++ [(z, 1)]

/-- The last `cap` entries of the log including the virtual ones. -/
def window (cap : Nat) (z : α) (items : List (Step α)) : List (Step α) :=
  (initW cap z ++ items).drop items.length

theorem initW_length {cap : Nat} (hc : 0 < cap) (z : α) : (initW cap z).length = cap := by
  simp [initW]; omega

theorem window_length {cap : Nat} (hc : 0 < cap) (z : α) (items : List (Step α)) :
    (window cap z items).length = cap := by
  simp [window, initW_length hc]

theorem window_append {cap : Nat} (hc : 0 < cap) (z : α) (items xs : List (Step α)) :
    (window cap z items ++ xs).drop xs.length = window cap z (items ++ xs) := by
  unfold window
  rw [List.length_append, ← List.drop_drop, ← List.append_assoc]
  congr 1
  rw [List.drop_append_of_le_length (l₂ := xs) (by simp)]

theorem window_eq {cap : Nat} (hc : 0 < cap) (z : α) (items : List (Step α)) :
    window cap z items = (initW cap z).drop items.length ++ stored cap items := by
  unfold window stored
  by_cases h : items.length ≤ cap
  · rw [List.drop_append_of_le_length (by rw [initW_length hc]; exact h)]
    rw [show items.length - cap = 0 by omega]; simp
  · rw [List.drop_append]
    rw [initW_length hc]

theorem Agree.of_rot0 {β : Type} {buf : List β} {cap : Nat} (hb : buf.length = cap) :
    Agree buf cap 0 buf := by
  intro i hi
  rw [Nat.zero_add, Nat.mod_eq_of_lt (by omega)]

theorem termSlots_replicate (cap p n : Nat) : termSlots cap p (List.replicate n 0) = [] := by
  induction n generalizing p with
  | zero => rfl
  | succ n ih => simp [List.replicate_succ, termSlots, ih]

theorem rep_init {cap : Nat} (hc : 0 < cap) (z : α) : Rep true (Queue.init cap z) (initW cap z) := by
  have hl := initW_length hc z
  have hcodes : (initW cap z).map Prod.snd = List.replicate (cap - 1) 0 ++ [1] := by
    simp [initW]
  have hvals : (initW cap z).map Prod.fst = List.replicate cap z := by
    simp only [initW, List.map_append, List.map_replicate, List.map_cons, List.map_nil]
    conv => rhs; rw [show cap = (cap - 1) + 1 by omega, List.replicate_succ']
  have hst : storedCodes true (List.replicate (cap - 1) 0 ++ [1]) = List.replicate (cap - 1) 0 ++ [1] := by
    simp [storedCodes, markLast]
  refine ⟨hc, hl, by simp [Queue.init], by simp [Queue.init]; omega, by simp [Queue.init], ?_, ?_, ?_, ?_, ?_⟩
  · intro x hx
    simp only [initW, List.mem_append, List.mem_replicate, List.mem_singleton] at hx
    rcases hx with ⟨_, rfl⟩ | rfl <;> simp
  · rw [hvals]; exact Agree.of_rot0 (by simp [Queue.init])
  · rw [hcodes, hst]; exact Agree.of_rot0 (by simp [Queue.init]; omega)
  · rw [hcodes, termSlots_concat, termSlots_replicate]
    simp [Queue.init]
  · rw [hcodes, countNonzero_append, countNonzero_zero (by simp)]
    simp [Queue.init, countNonzero]

theorem initW_closeLast {cap : Nat} (z : α) : closeLast (initW cap z) = initW cap z := by
  simp [closeLast, initW]

theorem closeLast_append (A B : List (Step α)) (hB : B ≠ []) :
    closeLast (A ++ B) = A ++ closeLast B := by
  unfold closeLast
  rw [List.getLast?_append, List.getLast?_eq_some_getLast hB]
  simp only [Option.some_or]
  split
  · rw [List.dropLast_append_of_ne_nil hB]; simp
  · rfl

theorem closeLast_length (A : List (Step α)) : (closeLast A).length = A.length := by
  unfold closeLast
  cases h : A.getLast? with
  | none => rfl
  | some x =>
    have hne : A ≠ [] := by intro e; simp [e] at h
    have := List.length_pos_iff.mpr hne
    simp only
    split
    · simp; omega
    · rfl

theorem closeLast_drop (A : List (Step α)) (n : Nat) (h : n < A.length) :
    closeLast (A.drop n) = (closeLast A).drop n := by
  have h1 : A.drop n ≠ [] := by
    intro e
    have := congrArg List.length e
    simp at this; omega
  have := closeLast_append (A.take n) (A.drop n) h1
  rw [List.take_append_drop] at this
  rw [this, List.drop_append_of_le_length (by simp; omega), List.drop_take]
  simp

theorem window_closeLast {cap : Nat} (hc : 0 < cap) (z : α) (items : List (Step α)) :
    closeLast (window cap z items) = window cap z (closeLast items) := by
  unfold window
  rw [closeLast_drop _ _ (by simp [initW_length hc]; omega), closeLast_length]
  by_cases h : items = []
  · subst h
    simp [closeLast, initW]
  · rw [closeLast_append _ _ h]

/-- Invariant of runs: the state represents the window of the log. -/
structure RunInv (cap : Nat) (z : α) (s : Log α) (q : Queue α) : Prop where
  cap_eq : q.cap = cap
  bi_eq : q.bi = s.items.length
  rep : Rep s.marked q (window cap z s.items)

theorem RunInv.step {cap : Nat} {z : α} {s : Log α} {q : Queue α} (h : RunInv cap z s q) (op : Op α)
    (hop : CodesOk op) : RunInv cap z (s.step cap op) (q.step op) := by
  have hc : 0 < cap := h.cap_eq ▸ h.rep.capPos
  cases op with
  | enqueue xs =>
    obtain ⟨h1, h2⟩ := h.rep.enqueue xs hop
    simp only [Log.step, Queue.step, Queue.afterEnqueue]
    by_cases hacc : Acceptable cap xs
    · obtain ⟨q', e, ec, eb, hr⟩ := h1 (h.cap_eq ▸ hacc)
      rw [if_pos hacc, e]
      refine ⟨by rw [ec, h.cap_eq], by simp [eb, h.bi_eq], ?_⟩
      simp only
      rwa [window_append hc] at hr
    · obtain ⟨e, he⟩ := h2 (h.cap_eq ▸ hacc)
      rw [if_neg hacc, he]
      refine ⟨by simp [clear_cap, h.cap_eq], by simp [clear_bi, h.bi_eq], ?_⟩
      exact h.rep.clear
  | reset =>
    obtain ⟨q', e, ec, eb, hr⟩ := h.rep.reset
    simp only [Log.step, Queue.step, e]
    cases hm : s.marked with
    | true =>
      simp only [hm, if_true] at hr ⊢
      rw [window_closeLast hc] at hr
      exact ⟨by rw [ec, h.cap_eq], by simp [eb, h.bi_eq, closeLast_length], by simpa using hr⟩
    | false =>
      simp only [hm] at hr ⊢
      exact ⟨by rw [ec, h.cap_eq], by simp [eb, h.bi_eq], by simpa [hm] using hr⟩

theorem runInv {cap : Nat} (hc : 0 < cap) (z : α) (ops : List (Op α)) (hops : ∀ o ∈ ops, CodesOk o) :
    RunInv cap z (Log.run cap ops) (Queue.run cap z ops) := by
  unfold Log.run Queue.run
  have h0 : RunInv cap z (Log.empty : Log α) (Queue.init cap z) :=
    ⟨rfl, rfl, by simpa [window, Log.empty] using rep_init hc z⟩
  generalize (Log.empty : Log α) = s at h0
  generalize Queue.init cap z = q at h0
  induction ops generalizing s q with
  | nil => exact h0
  | cons o ops ih =>
    exact ih (fun o' ho' => hops o' (List.mem_cons_of_mem _ ho')) _ _
      (h0.step o (hops o List.mem_cons_self))

end Verif.Memory
