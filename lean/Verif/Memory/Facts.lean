import Verif.Memory.Windows

/-! Facts about reachable memories in terms of the stored part of the log. -/

namespace Verif.Memory

variable {α : Type}

theorem stored_length (cap : Nat) (items : List (Step α)) : (stored cap items).length = min items.length cap := by
  unfold stored; simp; omega

theorem addr_eq {cap : Nat} (hc : 0 < cap) (items : List (Step α)) (i : Nat) :
    addr cap items i = (items.length + ((cap - (stored cap items).length) + i)) % cap := by
  unfold addr
  have := stored_length cap items
  rw [show items.length + ((cap - (stored cap items).length) + i) =
    (items.length - (stored cap items).length + i) + cap by omega, Nat.add_mod_right]

theorem addr_range {cap : Nat} (hc : 0 < cap) (items : List (Step α)) (s n : Nat) :
    (rangeFrom s n).map (addr cap items) = slots cap (items.length + ((cap - (stored cap items).length) + s)) n := by
  simp only [rangeFrom, slots, List.map_map]
  apply List.map_congr_left
  intro k _
  simp only [Function.comp]
  rw [addr_eq hc]
  congr 1
  omega

theorem window_stored {cap : Nat} (hc : 0 < cap) (z : α) (items : List (Step α)) :
    (window cap z items).drop (cap - (stored cap items).length) = stored cap items := by
  rw [window_eq hc]
  have h1 := stored_length cap items
  rw [List.drop_left']
  simp [initW_length hc]; omega

/-- Reading a slice of the stored timesteps by address. -/
theorem RunInv.read {cap : Nat} {z : α} {s : Log α} {q : Queue α} (h : RunInv cap z s q) (a n : Nat)
    (han : a + n ≤ (stored cap s.items).length) :
    q.retrieve ((rangeFrom a n).map (addr cap s.items)) =
      some ((((stored cap s.items).drop a).take n).map Prod.fst) := by
  have hc : 0 < cap := h.cap_eq ▸ h.rep.capPos
  have hv := h.rep.vals
  rw [h.cap_eq, h.bi_eq] at hv
  have hd := hv.drop ((cap - (stored cap s.items).length) + a)
  rw [← List.map_drop, ← List.drop_drop, window_stored hc] at hd
  rw [addr_range hc]
  have : (List.map Prod.fst ((stored cap s.items).drop a)) =
      (((stored cap s.items).drop a).take n).map Prod.fst ++ (((stored cap s.items).drop a).drop n).map Prod.fst := by
    rw [← List.map_append, List.take_append_drop]
  rw [this] at hd
  have hg := gather_slots hd.left
  rw [List.length_map, List.length_take, List.length_drop, Nat.min_eq_left (by omega)] at hg
  exact hg

theorem addr_lt {cap : Nat} (hc : 0 < cap) (items : List (Step α)) (i : Nat) : addr cap items i < cap :=
  Nat.mod_lt _ hc

theorem addr_inj {cap : Nat} (items : List (Step α)) {i j : Nat} (hi : i < (stored cap items).length)
    (hj : j < (stored cap items).length) (h : addr cap items i = addr cap items j) : i = j := by
  have hl := stored_length cap items
  unfold addr at h
  by_cases hij : i < j
  · exact absurd h.symm (by
      have := mod_ne_of_lt (cap := cap) (p := items.length - (stored cap items).length + i) (k := j - i) (by omega) (by omega)
      rwa [show items.length - (stored cap items).length + i + (j - i) = items.length - (stored cap items).length + j by omega] at this)
  · by_cases hji : j < i
    · exact absurd h (by
        have := mod_ne_of_lt (cap := cap) (p := items.length - (stored cap items).length + j) (k := i - j) (by omega) (by omega)
        rwa [show items.length - (stored cap items).length + j + (i - j) = items.length - (stored cap items).length + i by omega] at this)
    · omega

theorem RunInv.get {cap : Nat} {z : α} {s : Log α} {q : Queue α} (h : RunInv cap z s q) (i : Nat)
    (hi : i < (stored cap s.items).length) :
    q.vals[addr cap s.items i]? = ((stored cap s.items)[i]?).map Prod.fst := by
  have hc : 0 < cap := h.cap_eq ▸ h.rep.capPos
  have hv := h.rep.vals
  rw [h.cap_eq, h.bi_eq] at hv
  have hd := hv.drop (cap - (stored cap s.items).length)
  rw [← List.map_drop, window_stored hc] at hd
  have := hd i (by simpa using hi)
  rw [addr_eq hc, ← Nat.add_assoc, this, List.getElem?_map]

theorem RunInv.unused {cap : Nat} {z : α} {s : Log α} {q : Queue α} (h : RunInv cap z s q) (a : Nat) (ha : a < cap)
    (hn : ∀ i, i < (stored cap s.items).length → addr cap s.items i ≠ a) : q.vals[a]? = some z := by
  have hc : 0 < cap := h.cap_eq ▸ h.rep.capPos
  have hv := h.rep.vals
  rw [h.cap_eq, h.bi_eq] at hv
  have hl := stored_length cap s.items
  by_cases hfull : cap ≤ s.items.length
  · -- every address is used
    exfalso
    have hS : (stored cap s.items).length = cap := by omega
    let i := (a + cap - (s.items.length - cap) % cap) % cap
    have hi : i < cap := Nat.mod_lt _ hc
    refine hn i (by omega) ?_
    unfold addr
    rw [hS]
    show (s.items.length - cap + (a + cap - (s.items.length - cap) % cap) % cap) % cap = a
    have hm := Nat.mod_lt (s.items.length - cap) hc
    rw [Nat.add_mod_mod, Nat.add_mod, ← Nat.mod_add_div (s.items.length - cap) cap]
    generalize (s.items.length - cap) % cap = r at hm
    generalize (s.items.length - cap) / cap = d
    rw [Nat.add_mul_mod_self_left, Nat.mod_eq_of_lt hm, Nat.add_mod_mod,
      show r + (a + cap - r) = a + cap by omega, Nat.add_mod_right, Nat.mod_eq_of_lt ha]
  · have hS : (stored cap s.items).length = s.items.length := by omega
    have hge : s.items.length ≤ a := by
      by_cases hlt : a < s.items.length
      · refine absurd ?_ (hn a (by omega))
        unfold addr
        rw [hS, Nat.sub_self, Nat.zero_add, Nat.mod_eq_of_lt ha]
      · omega
    have := hv (a - s.items.length) (by rw [List.length_map, window_length hc]; omega)
    rw [show s.items.length + (a - s.items.length) = a by omega, Nat.mod_eq_of_lt ha] at this
    rw [this, List.getElem?_map, window_eq hc, List.getElem?_append_left (by simp [initW_length hc]; omega),
      List.getElem?_drop]
    have hin : s.items.length + (a - s.items.length) < (initW cap z).length := by rw [initW_length hc]; omega
    rw [List.getElem?_eq_getElem hin]
    have hmem : (initW cap z)[s.items.length + (a - s.items.length)] ∈ initW cap z := List.getElem_mem hin
    simp only [initW, List.mem_append, List.mem_replicate, List.mem_singleton] at hmem
    rcases hmem with ⟨_, h2⟩ | h2
    · rw [Option.map_some]; congr 1; exact congrArg Prod.fst h2
    · rw [Option.map_some]; congr 1; exact congrArg Prod.fst h2

theorem RunInv.ec {cap : Nat} {z : α} {s : Log α} {q : Queue α} (h : RunInv cap z s q) :
    q.ec + 1 = ((episodes (window cap z s.items)).length : Int) := by
  rw [h.rep.ecEq]; unfold episodes; rw [splitEps_length]

theorem RunInv.ec_max {cap : Nat} {z : α} {s : Log α} {q : Queue α} (h : RunInv cap z s q) :
    max q.ec 0 = ((retrievable cap s.items).length : Int) := by
  have hc : 0 < cap := h.cap_eq ▸ h.rep.capPos
  have := h.ec
  rw [retrievable_window hc z, List.length_tail]
  omega

theorem termSlots_filter (cap : Nat) (l : List (Step α)) (p : Nat) :
    termSlots cap p (l.map Prod.snd) = (endPositions l).map (fun i => (p + i) % cap) := by
  unfold endPositions
  induction l generalizing p with
  | nil => rfl
  | cons x r ih =>
    rw [List.length_cons, List.range_succ_eq_map, List.filter_cons, List.filter_map]
    simp only [List.map_cons, termSlots, ih, List.getElem?_cons_zero, Function.comp_def, List.getElem?_cons_succ]
    by_cases hx : x.2 = 0
    · simp only [hx, if_true, ne_eq, not_true_eq_false, decide_false, Bool.false_eq_true, if_false, List.map_map]
      apply List.map_congr_left
      intro k _
      simp only [Function.comp]
      congr 1; omega
    · simp only [hx, if_false, ne_eq, not_false_eq_true, decide_true, if_true, List.map_cons, List.map_map, Nat.add_zero]
      congr 1
      apply List.map_congr_left
      intro k _
      simp only [Function.comp]
      congr 1; omega

theorem RunInv.ends {cap : Nat} {z : α} {s : Log α} {q : Queue α} (h : RunInv cap z s q) :
    q.ti.take (q.ec + 1).toNat =
      (if s.items.length < cap then [cap - 1] else []) ++ (endPositions (stored cap s.items)).map (addr cap s.items) := by
  have hc : 0 < cap := h.cap_eq ▸ h.rep.capPos
  have hl := stored_length cap s.items
  have ht := h.rep.tiEq
  rw [h.cap_eq, h.bi_eq] at ht
  rw [ht, window_eq hc, List.map_append, termSlots_append, termSlots_filter _ (stored cap s.items)]
  have hdl : (List.map Prod.snd ((initW cap z).drop s.items.length)).length = cap - (stored cap s.items).length := by
    simp [initW_length hc]; omega
  congr 1
  · split
    · rename_i hlt
      unfold initW
      rw [List.drop_append_of_le_length (by simp; omega), List.drop_replicate, List.map_append, List.map_replicate,
        termSlots_append, termSlots_replicate]
      simp only [List.map_cons, List.map_nil, termSlots, List.length_replicate]
      simp
      rw [show s.items.length + (cap - 1 - s.items.length) = cap - 1 by omega, Nat.mod_eq_of_lt (by omega)]
    · rw [List.drop_eq_nil_of_le (by rw [initW_length hc]; omega)]; rfl
  · apply List.map_congr_left
    intro i _
    rw [hdl, addr_eq hc, Nat.add_assoc]

/-- The available timesteps never exceed the stored ones if no horizon is required. -/
theorem RunInv.ec_le {cap : Nat} {z : α} {s : Log α} {q : Queue α} (h : RunInv cap z s q) :
    q.ec ≤ (stored cap s.items).length := by
  have hc : 0 < cap := h.cap_eq ▸ h.rep.capPos
  have h1 := h.ends
  have h2 := congrArg List.length h1
  have hti := h.rep.lenTi
  have hecle : (q.ec + 1).toNat ≤ q.cap := by
    have := h.rep.ecEq
    have h3 := countNonzero_le ((window cap z s.items).map Prod.snd)
    rw [List.length_map, window_length hc] at h3
    have := h.cap_eq
    omega
  rw [List.length_take, hti, List.length_append, List.length_map] at h2
  have h3 : (endPositions (stored cap s.items)).length ≤ (stored cap s.items).length := by
    unfold endPositions
    have := List.length_filter_le (fun i => match (stored cap s.items)[i]? with | some x => decide (x.2 ≠ 0) | none => false)
      (List.range (stored cap s.items).length)
    rw [List.length_range] at this
    exact this
  split at h2 <;> simp at h2 <;> omega

theorem lookback_shift (V S : List (Step α)) (k i : Nat) (hi : i < S.length)
    (hV : V = [] ∨ ∃ V' t, V = V' ++ [t] ∧ t.2 ≠ 0) :
    lookback k (V ++ S) (V.length + i) = lookback k S i := by
  unfold lookback
  rw [List.take_length_add_append, List.drop_length_add_append, List.reverse_append]
  congr 3
  rcases hV with rfl | ⟨V', t, rfl, ht⟩
  · simp
  · rw [List.reverse_append, List.reverse_singleton, List.singleton_append]
    generalize (S.take i).reverse = X
    induction X with
    | nil => simp [ht]
    | cons x X ih => simp only [List.cons_append, List.takeWhile_cons, ih]

theorem lookahead_shift (V S : List (Step α)) (k i : Nat) :
    lookahead k (V ++ S) (V.length + i) = lookahead k S i := by
  unfold lookahead
  rw [List.drop_length_add_append]

theorem init_part {cap : Nat} (hc : 0 < cap) (z : α) (n : Nat) :
    (initW cap z).drop n = [] ∨ ∃ V' t, (initW cap z).drop n = V' ++ [t] ∧ t.2 ≠ 0 := by
  by_cases h : n < cap
  · right
    unfold initW
    rw [List.drop_append_of_le_length (by simp; omega)]
    exact ⟨_, _, rfl, by simp⟩
  · left
    rw [List.drop_eq_nil_of_le (by rw [initW_length hc]; omega)]

theorem window_split {cap : Nat} (hc : 0 < cap) (z : α) (items : List (Step α)) :
    ∃ V, window cap z items = V ++ stored cap items ∧ V.length = cap - (stored cap items).length ∧
      (V = [] ∨ ∃ V' t, V = V' ++ [t] ∧ t.2 ≠ 0) := by
  refine ⟨_, window_eq hc z items, ?_, init_part hc z _⟩
  have := stored_length cap items
  simp [initW_length hc]; omega

theorem RunInv.marks {cap : Nat} {z : α} {s : Log α} {q : Queue α} (h : RunInv cap z s q) (hf : Fenced s) :
    Marks q (window cap z s.items) := by
  have hc : 0 < cap := h.cap_eq ▸ h.rep.capPos
  refine h.rep.marks ?_
  rcases hf with hm | hl
  · exact Or.inl hm
  · right
    intro x hx
    unfold window at hx
    rw [List.getLast?_drop] at hx
    simp [initW_length hc] at hx
    by_cases he : s.items = []
    · rw [he] at hx; simp [initW] at hx; rw [← hx.2]; simp
    · rcases hx.2 with h1 | h1
      · exact hl x h1
      · exact absurd h1.1 he

theorem map_slot {cap : Nat} (hc : 0 < cap) (items : List (Step α)) (ps : List Nat) :
    ps.map (addr cap items) = (ps.map (fun i => (cap - (stored cap items).length) + i)).map (fun i => (items.length + i) % cap) := by
  rw [List.map_map]
  apply List.map_congr_left
  intro i _
  exact addr_eq hc items i

theorem RunInv.back {cap : Nat} {z : α} {s : Log α} {q : Queue α} (h : RunInv cap z s q) (hf : Fenced s)
    (ps : List Nat) (hps : ∀ i ∈ ps, i < (stored cap s.items).length) (k : Nat) :
    ∃ w, q.predecessors (ps.map (addr cap s.items)) k = some w ∧
      w.lengths = ps.map (fun i => (lookback k (stored cap s.items) i).length) ∧
      w.starts = cumsumExcl 0 w.lengths ∧
      q.retrieve w.flat = some ((ps.map (lookback k (stored cap s.items))).flatten.map Prod.fst) ∧
      q.retrieve w.marks = some ((ps.filterMap (fun i => (lookback k (stored cap s.items) i).head?)).map Prod.fst) := by
  have hc : 0 < cap := h.cap_eq ▸ h.rep.capPos
  obtain ⟨V, hW, hVl, hVe⟩ := window_split hc z s.items
  have hm := h.marks hf
  have hsl := stored_length cap s.items
  have hps' : ∀ i ∈ ps.map (fun i => (cap - (stored cap s.items).length) + i), i < q.cap := by
    intro i hi
    obtain ⟨j, hj, rfl⟩ := List.mem_map.mp hi
    have := hps j hj
    rw [h.cap_eq]; omega
  have hp := Rep.predecessors hm _ hps' k
  rw [h.bi_eq, h.cap_eq, ← map_slot hc] at hp
  have hlb : ∀ i ∈ ps, lookback k (window cap z s.items) ((cap - (stored cap s.items).length) + i) =
      lookback k (stored cap s.items) i := by
    intro i hi
    rw [hW, ← hVl]; exact lookback_shift V _ k i (hps i hi) hVe
  have hv := h.rep.vals
  rw [h.cap_eq, h.bi_eq] at hv
  have hread : ∀ i ∈ ps, gather q.vals
      (slots cap (s.items.length + (((cap - (stored cap s.items).length) + i) -
        backCount (window cap z s.items) k ((cap - (stored cap s.items).length) + i)))
        (backCount (window cap z s.items) k ((cap - (stored cap s.items).length) + i) + 1)) =
      some ((lookback k (stored cap s.items) i).map Prod.fst) := by
    intro i hi
    have hil := hps i hi
    have hlen := lookback_length (window cap z s.items) k ((cap - (stored cap s.items).length) + i)
      (by rw [window_length hc]; omega)
    have heq := lookback_eq (window cap z s.items) k ((cap - (stored cap s.items).length) + i)
      (by rw [window_length hc]; omega)
    rw [← hlb i hi, ← hlen]
    generalize backCount (window cap z s.items) k ((cap - (stored cap s.items).length) + i) = b at *
    have hd := hv.drop (((cap - (stored cap s.items).length) + i) - b)
    rw [← List.map_drop, ← List.take_append_drop (b + 1) (List.drop _ (window cap z s.items)), ← heq, List.map_append] at hd
    have := gather_slots hd.left
    rwa [List.length_map] at this
  refine ⟨_, hp, ?_, rfl, ?_, ?_⟩
  · simp only [List.map_map]
    apply List.map_congr_left
    intro i hi
    simp only [Function.comp]
    rw [hlb i hi]
  · simp only [List.map_map, Queue.retrieve, Function.comp_def]
    rw [gather_flatten q.vals _ (fun i => (lookback k (stored cap s.items) i).map Prod.fst) ps hread]
    rw [List.map_flatten, List.map_map]; rfl
  · simp only [List.map_map, Queue.retrieve]
    clear hp hps'
    induction ps with
    | nil => rfl
    | cons i ps ih =>
      have hr := hread i List.mem_cons_self
      have hrest := ih (fun j hj => hps j (List.mem_cons_of_mem _ hj)) (fun j hj => hlb j (List.mem_cons_of_mem _ hj))
        (fun j hj => hread j (List.mem_cons_of_mem _ hj))
      rw [slots_succ, gather_cons] at hr
      simp only [List.map_cons, Function.comp_apply, gather_cons]
      simp only [Function.comp_def] at hrest
      simp only [Function.comp_def]
      rw [hrest]
      generalize q.vals[(s.items.length + (cap - (stored cap s.items).length + i -
        backCount (window cap z s.items) k (cap - (stored cap s.items).length + i))) % cap]? = o at *
      cases o with
      | none => simp at hr
      | some v =>
        cases hL : lookback k (stored cap s.items) i with
        | nil => rw [hL] at hr; simp at hr
        | cons x L =>
          rw [hL] at hr
          simp at hr
          rw [List.filterMap_cons_some (f := fun i => (lookback k (stored cap s.items) i).head?) (a := i) (b := x)
            (by simp [hL])]
          simp [hr.2]

theorem gather_length {β : Type} {buf : List β} {a : List Nat} {x : List β} (h : gather buf a = some x) :
    x.length = a.length := by
  induction a generalizing x with
  | nil => simp [gather_nil] at h; simp [h]
  | cons j a ih =>
    rw [gather_cons] at h
    cases hj : buf[j]? with
    | none => simp [hj] at h
    | some v =>
      cases hg : gather buf a with
      | none => simp [hj, hg] at h
      | some w =>
        simp [hj, hg] at h
        rw [← h, List.length_cons, ih hg, List.length_cons]

theorem gather_concat {β : Type} {buf : List β} {a : List Nat} {i : Nat} {x : List β} {y : β}
    (h : gather buf (a ++ [i]) = some (x ++ [y])) : buf[i]? = some y := by
  induction a generalizing x with
  | nil =>
    rw [List.nil_append, gather_cons, gather_nil] at h
    cases hi : buf[i]? with
    | none => simp [hi] at h
    | some v =>
      simp [hi] at h
      cases x with
      | nil => simpa using h
      | cons _ x => simp at h
  | cons j a ih =>
    rw [List.cons_append, gather_cons] at h
    cases hj : buf[j]? with
    | none => simp [hj] at h
    | some v =>
      cases hg : gather buf (a ++ [i]) with
      | none => simp [hj, hg] at h
      | some w =>
        simp [hj, hg] at h
        cases x with
        | nil =>
          simp at h
          have hl : w.length = a.length + 1 := by
            have := gather_length hg; simpa using this
          rw [h.2] at hl; simp at hl
        | cons c x =>
          simp at h
          exact ih (x := x) (by rw [hg, h.2])

theorem RunInv.ahead {cap : Nat} {z : α} {s : Log α} {q : Queue α} (h : RunInv cap z s q) (hf : Fenced s)
    (ps : List Nat) (hps : ∀ i ∈ ps, i < (stored cap s.items).length) (k : Nat) :
    ∃ w, q.successors (ps.map (addr cap s.items)) k = some w ∧
      w.lengths = ps.map (fun i => (lookahead k (stored cap s.items) i).length) ∧
      w.starts = cumsumExcl 0 w.lengths ∧
      q.retrieve w.flat = some ((ps.map (lookahead k (stored cap s.items))).flatten.map Prod.fst) ∧
      q.retrieve w.marks = some ((ps.filterMap (fun i => (lookahead k (stored cap s.items) i).getLast?)).map Prod.fst) := by
  have hc : 0 < cap := h.cap_eq ▸ h.rep.capPos
  obtain ⟨V, hW, hVl, hVe⟩ := window_split hc z s.items
  have hm := h.marks hf
  have hsl := stored_length cap s.items
  have hps' : ∀ i ∈ ps.map (fun i => (cap - (stored cap s.items).length) + i), i < q.cap := by
    intro i hi
    obtain ⟨j, hj, rfl⟩ := List.mem_map.mp hi
    have := hps j hj
    rw [h.cap_eq]; omega
  have hp := Rep.successors hm _ hps' k
  rw [h.bi_eq, h.cap_eq, ← map_slot hc] at hp
  have hla : ∀ i, lookahead k (window cap z s.items) ((cap - (stored cap s.items).length) + i) =
      lookahead k (stored cap s.items) i := by
    intro i
    rw [hW, ← hVl]; exact lookahead_shift V _ k i
  have hv := h.rep.vals
  rw [h.cap_eq, h.bi_eq] at hv
  have hread : ∀ i ∈ ps, gather q.vals
      (slots cap (s.items.length + ((cap - (stored cap s.items).length) + i))
        (fwdCount k ((window cap z s.items).drop ((cap - (stored cap s.items).length) + i)) + 1)) =
      some ((lookahead k (stored cap s.items) i).map Prod.fst) := by
    intro i hi
    have hil := hps i hi
    have hlen := lookahead_length (window cap z s.items) k ((cap - (stored cap s.items).length) + i)
      (by rw [window_length hc]; omega)
    have heq := lookahead_eq (window cap z s.items) k ((cap - (stored cap s.items).length) + i)
      (by rw [window_length hc]; omega)
    rw [← hla i, ← hlen]
    generalize fwdCount k ((window cap z s.items).drop ((cap - (stored cap s.items).length) + i)) = b at *
    have hd := hv.drop ((cap - (stored cap s.items).length) + i)
    rw [← List.map_drop, ← List.take_append_drop (b + 1) (List.drop _ (window cap z s.items)), ← heq, List.map_append] at hd
    have := gather_slots hd.left
    rwa [List.length_map] at this
  refine ⟨_, hp, ?_, rfl, ?_, ?_⟩
  · simp only [List.map_map]
    apply List.map_congr_left
    intro i hi
    simp only [Function.comp]
    rw [hla i]
  · simp only [List.map_map, Queue.retrieve, Function.comp_def]
    rw [gather_flatten q.vals _ (fun i => (lookahead k (stored cap s.items) i).map Prod.fst) ps hread]
    rw [List.map_flatten, List.map_map]; rfl
  · simp only [List.map_map, Queue.retrieve]
    clear hp hps'
    induction ps with
    | nil => rfl
    | cons i ps ih =>
      have hr := hread i List.mem_cons_self
      have hrest := ih (fun j hj => hps j (List.mem_cons_of_mem _ hj))
        (fun j hj => hread j (List.mem_cons_of_mem _ hj))
      simp only [List.map_cons, Function.comp_apply, gather_cons]
      simp only [Function.comp_def] at hrest
      simp only [Function.comp_def]
      rw [hrest]
      -- the last slot of the block holds the last entry of the look-ahead
      have hil := hps i List.mem_cons_self
      have hlen : (lookahead k (stored cap s.items) i).length =
          fwdCount k ((window cap z s.items).drop ((cap - (stored cap s.items).length) + i)) + 1 := by
        rw [← hla i]; exact lookahead_length _ _ _ (by rw [window_length hc]; omega)
      generalize fwdCount k ((window cap z s.items).drop ((cap - (stored cap s.items).length) + i)) = b at *
      have hne : lookahead k (stored cap s.items) i ≠ [] := by
        intro e; rw [e] at hlen; simp at hlen
      rw [slots_append, slots_succ, slots_zero] at hr
      obtain ⟨xs, hxs⟩ : ∃ xs, lookahead k (stored cap s.items) i = xs ++ [(lookahead k (stored cap s.items) i).getLast hne] :=
        ⟨_, (List.dropLast_concat_getLast hne).symm⟩
      rw [List.filterMap_cons_some (f := fun i => (lookahead k (stored cap s.items) i).getLast?) (a := i)
        (List.getLast?_eq_some_getLast hne)]
      generalize (lookahead k (stored cap s.items) i).getLast hne = y at *
      rw [hxs, List.map_append, List.map_cons, List.map_nil] at hr
      have := gather_concat hr
      rw [← Nat.add_assoc, this]
      rfl

end Verif.Memory
