import Verif.Session.Spec

/-!
# Helper lemmas about the session state
-/

namespace Verif.Session

variable {V S I A : Type}

theorem current_snoc {α : Type} (f : α → Call V S I) (p : Nat) (cs : List α) (c : α) :
    current f p (cs ++ [c]) = if (f c).ends p then [] else current f p cs ++ [c] := by
  unfold current
  rw [List.reverse_append, List.reverse_singleton, List.singleton_append, List.takeWhile_cons]
  cases (f c).ends p <;> simp

theorem annotate_snoc (vars : V) (cs : List (Call V S I)) (c : Call V S I) :
    annotate vars (cs ++ [c]) = annotate vars cs ++ [(cs.foldl (fun v c => c.updated.getD v) vars, c)] := by
  induction cs generalizing vars with
  | nil => rfl
  | cons d ds ih => simp [annotate, ih]

theorem run_snoc (net : Net V S I A) (st st' : State V I) (cs : List (Call V S I)) (c : Call V S I)
    (rs : List (Result I A)) (h : run net st (cs ++ [c]) = some (rs, st')) :
    ∃ rs0 st0 r, run net st cs = some (rs0, st0) ∧ exec net st0 c = some (r, st') ∧ rs = rs0 ++ [r] := by
  induction cs generalizing st rs with
  | nil =>
    simp only [List.nil_append, run] at h
    cases he : exec net st c with
    | none => rw [he] at h; simp at h
    | some x =>
      obtain ⟨r, st1⟩ := x
      rw [he] at h
      simp only [Option.some.injEq, Prod.mk.injEq] at h
      exact ⟨[], st, r, rfl, by rw [← h.2, he], by rw [← h.1]; rfl⟩
  | cons d ds ih =>
    simp only [List.cons_append, run] at h
    cases he : exec net st d with
    | none => rw [he] at h; simp at h
    | some x =>
      obtain ⟨r, st1⟩ := x
      rw [he] at h
      dsimp only at h
      cases hr : run net st1 (ds ++ [c]) with
      | none => rw [hr] at h; simp at h
      | some y =>
        obtain ⟨rs1, st2⟩ := y
        rw [hr] at h
        simp only [Option.some.injEq, Prod.mk.injEq] at h
        rw [← h.2]
        obtain ⟨rs0, st0, r', h1, h2, h3⟩ := ih st1 rs1 (by rw [hr, h.2])
        refine ⟨r :: rs0, st0, r', ?_, by rw [h.2]; exact h2, by rw [← h.1, h3]; rfl⟩
        simp [run, he, h1]

theorem run_append (net : Net V S I A) (st st1 st2 : State V I) (cs ds : List (Call V S I)) (rs1 rs2 : List (Result I A))
    (h1 : run net st cs = some (rs1, st1)) (h2 : run net st1 ds = some (rs2, st2)) :
    run net st (cs ++ ds) = some (rs1 ++ rs2, st2) := by
  induction cs generalizing st rs1 with
  | nil =>
    simp only [run, Option.some.injEq, Prod.mk.injEq] at h1
    rw [← h1.1, h1.2]
    exact h2
  | cons c cs ih =>
    simp only [run] at h1
    cases he : exec net st c with
    | none => rw [he] at h1; simp at h1
    | some x =>
      obtain ⟨r, st'⟩ := x
      rw [he] at h1
      dsimp only at h1
      cases hr : run net st' cs with
      | none => rw [hr] at h1; simp at h1
      | some y =>
        rw [hr] at h1
        obtain ⟨rs', st''⟩ := y
        simp only [Option.some.injEq, Prod.mk.injEq] at h1
        simp [run, he, ih st' rs' (by rw [hr, h1.2]), ← h1.1]

/-! ### Scatter -/

theorem scatter_length {α : Type} (xs : List α) (us : List (Nat × α)) : (scatter xs us).length = xs.length := by
  induction us generalizing xs with
  | nil => rfl
  | cons u us ih => obtain ⟨p, x⟩ := u; simp [scatter, ih]

theorem scatter_other {α : Type} (xs : List α) (us : List (Nat × α)) (p : Nat) (h : p ∉ us.map (·.1)) :
    (scatter xs us)[p]? = xs[p]? := by
  induction us generalizing xs with
  | nil => rfl
  | cons u us ih =>
    obtain ⟨q, x⟩ := u
    simp only [List.map_cons, List.mem_cons, not_or] at h
    rw [scatter, ih _ h.2, List.getElem?_set_ne (Ne.symm h.1)]

theorem scatter_at {α : Type} (xs : List α) (us : List (Nat × α)) (hn : (us.map (·.1)).Nodup) (p : Nat) (x : α)
    (h : (p, x) ∈ us) (hp : p < xs.length) : (scatter xs us)[p]? = some x := by
  induction us generalizing xs with
  | nil => exact absurd h (by simp)
  | cons u us ih =>
    obtain ⟨q, y⟩ := u
    simp only [List.map_cons, List.nodup_cons] at hn
    rw [scatter]
    rcases List.mem_cons.1 h with he | hm
    · cases he
      rw [scatter_other _ _ _ hn.1]
      simp [hp]
    · exact ih (xs.set q y) hn.2 hm (by simpa using hp)

theorem scatterAdd_length {α : Type} [Add α] (xs : List α) (p : Nat) (d : α) : (scatterAdd xs p d).length = xs.length := by
  unfold scatterAdd
  split <;> simp

theorem scatterAdd_other {α : Type} [Add α] (xs : List α) (p q : Nat) (d : α) (h : q ≠ p) :
    (scatterAdd xs p d)[q]? = xs[q]? := by
  unfold scatterAdd
  split
  · rfl
  · rw [List.getElem?_set_ne (Ne.symm h)]

theorem scatterAdd_at {α : Type} [Add α] (xs : List α) (p : Nat) (d x : α) (h : xs[p]? = some x) :
    (scatterAdd xs p d)[p]? = some (x + d) := by
  have hp : p < xs.length := (List.getElem?_eq_some_iff.1 h).1
  unfold scatterAdd
  rw [h]
  exact List.getElem?_set_self hp

/-! ### Rows of a batch -/

theorem rows_spec (net : Net V S I A) (vars : V) (internals : List I) (batch : List (Nat × S)) (r : List (Nat × A × I))
    (h : rows net vars internals batch = some r) :
    r.map (·.1) = batch.map (·.1) ∧ r.length = batch.length ∧
      (∀ p s i, (p, s) ∈ batch → internals[p]? = some i → (p, net.step vars s i) ∈ r) ∧ ∀ x ∈ batch, x.1 < internals.length := by
  induction batch generalizing r with
  | nil =>
    simp only [rows, Option.some.injEq] at h
    subst h
    simp
  | cons b batch ih =>
    obtain ⟨q, s⟩ := b
    simp only [rows] at h
    cases hi : internals[q]? with
    | none => rw [hi] at h; simp at h
    | some i =>
      cases hr : rows net vars internals batch with
      | none => rw [hi, hr] at h; simp at h
      | some r' =>
        rw [hi, hr] at h
        simp only [Option.some.injEq] at h
        subst h
        obtain ⟨h1, h2, h3, h4⟩ := ih r' hr
        refine ⟨by simp [h1], by simp [h2], ?_, ?_⟩
        · intro p s' i' hm hi'
          rcases List.mem_cons.1 hm with he | hm
          · cases he
            rw [hi] at hi'
            cases hi'
            simp
          · exact List.mem_cons_of_mem _ (h3 p s' i' hm hi')
        · intro x hx
          rcases List.mem_cons.1 hx with he | hx
          · subst he
            exact (List.getElem?_eq_some_iff.1 hi).1
          · exact h4 x hx

theorem rows_ok (net : Net V S I A) (vars : V) (internals : List I) (batch : List (Nat × S))
    (h : ∀ x ∈ batch, x.1 < internals.length) : ∃ r, rows net vars internals batch = some r := by
  induction batch with
  | nil => exact ⟨[], rfl⟩
  | cons b batch ih =>
    obtain ⟨q, s⟩ := b
    obtain ⟨r, hr⟩ := ih fun x hx => h x (by simp [hx])
    have hq : q < internals.length := h (q, s) (by simp)
    exact ⟨_, by simp only [rows, hr, List.getElem?_eq_getElem hq]; rfl⟩

/-- A batch without repetitions contains at most one state of an interaction. -/
theorem filter_nodup (batch : List (Nat × S)) (p : Nat) (hn : (batch.map (·.1)).Nodup) :
    (p ∉ batch.map (·.1) ∧ (batch.filter (·.1 = p)).map (·.2) = []) ∨
      ∃ s, (p, s) ∈ batch ∧ (batch.filter (·.1 = p)).map (·.2) = [s] := by
  induction batch with
  | nil => left; simp
  | cons b batch ih =>
    obtain ⟨q, s⟩ := b
    simp only [List.map_cons, List.nodup_cons] at hn
    by_cases hq : q = p
    · subst hq
      right
      refine ⟨s, by simp, ?_⟩
      have : batch.filter (fun x => decide (x.1 = q)) = [] := by
        rw [List.filter_eq_nil_iff]
        intro x hx
        simp only [decide_eq_true_eq]
        intro e
        exact hn.1 (List.mem_map.2 ⟨x, hx, e⟩)
      simp [this]
    · rcases ih hn.2 with ⟨h1, h2⟩ | ⟨s', h1, h2⟩
      · left
        constructor
        · simp only [List.map_cons, List.mem_cons, not_or]
          exact ⟨Ne.symm hq, h1⟩
        · simpa [hq] using h2
      · right
        exact ⟨s', by simp [h1], by simpa [hq] using h2⟩

/-! ### Terminal codes -/

theorem last_any (ts : List Nat) (h : ts.isEmpty = false)
    (hc : (decide (0 < ts.countP (0 < ·)) == decide (0 < ts.getLast?.getD 0)) = true) :
    ts.any (0 < ·) = decide (0 < ts.getLast?.getD 0) := by
  have e := beq_iff_eq.1 hc
  rw [← e]
  rw [Bool.eq_iff_iff]
  simp [List.countP_pos_iff]

theorem valid_any (n p : Nat) (ts : List Nat) (rs : List Rat) (h : observeValid n p ts rs = true) :
    ts.any (0 < ·) = decide (0 < ts.getLast?.getD 0) ∧ p < n ∧ rs.length = ts.length := by
  unfold observeValid at h
  simp only [Bool.and_eq_true, Bool.not_eq_true', decide_eq_true_eq, beq_iff_eq] at h
  obtain ⟨⟨⟨⟨⟨_, h2⟩, h3⟩, h4⟩, _⟩, h6⟩ := h
  exact ⟨last_any ts h4 (by rw [beq_iff_eq]; exact h6), h3, h2⟩

theorem valid_form (n p : Nat) (ts : List Nat) (rs : List Rat) (h : observeValid n p ts rs = true) :
    ∃ (k e : Nat), e < 3 ∧ ts = List.replicate k 0 ++ [e] := by
  unfold observeValid at h
  simp only [Bool.and_eq_true, Bool.not_eq_true', decide_eq_true_eq, beq_iff_eq] at h
  obtain ⟨⟨⟨⟨⟨h1, _⟩, _⟩, h4⟩, h5⟩, h6⟩ := h
  have hne : ts ≠ [] := by intro e; rw [e] at h4; cases h4
  have hts : ts = ts.dropLast ++ [ts.getLast hne] := (List.dropLast_concat_getLast hne).symm
  generalize ts.dropLast = xs at hts
  generalize ts.getLast hne = e at hts
  subst hts
  simp only [List.countP_append, List.countP_cons, List.countP_nil, List.getLast?_append, List.getLast?_singleton,
    Option.some_or, Option.getD_some, List.all_append, List.all_cons, List.all_nil, Bool.and_eq_true, decide_eq_true_eq] at h1 h5 h6
  have h0 : xs.countP (fun x => decide (0 < x)) = 0 := by
    cases e with
    | zero => simp at h6; simpa [List.countP_eq_zero] using h6
    | succ e => simp at h5; simpa [List.countP_eq_zero] using h5
  refine ⟨xs.length, e, h1.2.1, ?_⟩
  rw [List.countP_eq_zero] at h0
  rw [List.append_cancel_right_eq, List.eq_replicate_iff]
  exact ⟨rfl, fun a ha => by have := h0 a ha; simp at this; exact this⟩

theorem foldl_sum (xs : List Rat) (a : Rat) : xs.foldl (· + ·) a = a + xs.sum := by
  induction xs generalizing a with
  | nil => simp [Rat.add_zero]
  | cons x xs ih => rw [List.foldl_cons, ih, List.sum_cons, Rat.add_assoc]

theorem sum_append (xs ys : List Rat) : (xs ++ ys).sum = xs.sum + ys.sum := by
  induction xs with
  | nil => simp [Rat.zero_add]
  | cons x xs ih => rw [List.cons_append, List.sum_cons, List.sum_cons, ih, Rat.add_assoc]

/-! ### Invariant -/

theorem snoc_induction {α : Type} {P : List α → Prop} (nil : P []) (snoc : ∀ xs x, P xs → P (xs ++ [x])) (xs : List α) : P xs := by
  have h : ∀ ys : List α, P ys.reverse := by
    intro ys
    induction ys with
    | nil => exact nil
    | cons y ys ih => rw [List.reverse_cons]; exact snoc _ _ ih
  have := h xs.reverse
  rwa [List.reverse_reverse] at this

/-- What `observe` does if it succeeds. -/
theorem observe_spec (net : Net V S I A) (st st' : State V I) (p : Nat) (ts : List Nat) (rs : List Rat) (u : Option V)
    (r : Result I A) (h : observe net st p ts rs u = some (r, st')) :
    p < st.length.length ∧ rs.length = ts.length ∧ st'.vars = u.getD st.vars ∧
      st'.updates = st.updates + (if u.isSome then 1 else 0) ∧ st'.timesteps = st.timesteps ∧
      st'.episodes = st.episodes + (if ts.any (0 < ·) then 1 else 0) ∧
      r = .observed u.isSome st'.episodes st'.updates ∧
      st'.length = (if ts.any (0 < ·) then scatter (scatterAdd st.length p ts.length) [(p, 0)]
        else scatterAdd st.length p ts.length) ∧
      st'.ret = (if ts.any (0 < ·) then scatter (scatterAdd st.ret p rs.sum) [(p, 0)]
        else scatterAdd st.ret p rs.sum) ∧
      st'.internals = (if ts.any (0 < ·) then scatter st.internals [(p, net.initial)] else st.internals) := by
  unfold observe at h
  split at h
  · rename_i hv
    obtain ⟨ha, hp, hl⟩ := valid_any _ _ _ _ hv
    simp only [foldl_sum, Rat.zero_add, Option.some.injEq, Prod.mk.injEq] at h
    obtain ⟨h1, h2⟩ := h
    rw [ha]
    refine ⟨hp, hl, ?_⟩
    rw [← h2]
    rw [← h1]
    by_cases ht : 0 < ts.getLast?.getD 0
    · rw [if_pos ht, decide_eq_true ht]
      refine ⟨rfl, ?_, rfl, rfl, rfl, rfl, rfl, rfl⟩
      cases u <;> rfl
    · rw [if_neg ht, decide_eq_false ht]
      refine ⟨rfl, ?_, rfl, rfl, rfl, rfl, rfl, rfl⟩
      cases u <;> rfl
  · exact absurd h (by simp)

/-- What `act` does if it succeeds. -/
theorem act_spec (net : Net V S I A) (st st' : State V I) (batch : List (Nat × S)) (r : Result I A)
    (h : act net st batch = some (r, st')) :
    ∃ rs, rows net st.vars st.internals batch = some rs ∧
      r = .acted (rs.map fun x => x.2.1) (st.timesteps + batch.length) ∧
      st' = { st with internals := scatter st.internals (rs.map fun x => (x.1, x.2.2)),
                      timesteps := st.timesteps + batch.length } := by
  unfold act at h
  split at h
  · exact absurd h (by simp)
  · rename_i rs hr
    simp only [Option.some.injEq, Prod.mk.injEq] at h
    exact ⟨rs, hr, h.1.symm, h.2.symm⟩

/-- The tables keep their sizes. -/
theorem exec_sizes (net : Net V S I A) (st st' : State V I) (c : Call V S I) (r : Result I A)
    (h : exec net st c = some (r, st')) :
    st'.length.length = st.length.length ∧ st'.ret.length = st.ret.length ∧ st'.internals.length = st.internals.length := by
  cases c with
  | act batch =>
    obtain ⟨rs, _, _, h3⟩ := act_spec net st st' batch r h
    subst h3
    exact ⟨rfl, rfl, scatter_length _ _⟩
  | independent batch =>
    simp only [exec, Option.some.injEq, Prod.mk.injEq] at h
    rw [← h.2]
    exact ⟨rfl, rfl, rfl⟩
  | observe p ts rs u =>
    obtain ⟨_, _, _, _, _, _, _, h1, h2, h3⟩ := observe_spec net st st' p ts rs u r h
    rw [h1, h2, h3]
    refine ⟨?_, ?_, ?_⟩ <;> split <;> simp [scatter_length, scatterAdd_length]
  | reset =>
    simp only [exec, Option.some.injEq, Prod.mk.injEq] at h
    rw [← h.2]
    exact ⟨rfl, rfl, rfl⟩

theorem run_sizes (net : Net V S I A) (n : Nat) (vars : V) (calls : List (Call V S I)) (rs : List (Result I A)) (st : State V I)
    (h : run net (initState net n vars) calls = some (rs, st)) :
    st.length.length = n ∧ st.ret.length = n ∧ st.internals.length = n := by
  induction calls using snoc_induction generalizing rs st with
  | nil =>
    simp only [run, Option.some.injEq, Prod.mk.injEq] at h
    rw [← h.2]
    simp [initState]
  | snoc cs c ih =>
    obtain ⟨rs0, st0, r, h1, h2, _⟩ := run_snoc net _ st cs c rs h
    obtain ⟨a, b, d⟩ := ih rs0 st0 h1
    obtain ⟨a', b', d'⟩ := exec_sizes net st0 st c r h2
    exact ⟨a'.trans a, b'.trans b, d'.trans d⟩

/-- The variables after a session. -/
theorem run_vars (net : Net V S I A) (st0 : State V I) (calls : List (Call V S I)) (rs : List (Result I A)) (st : State V I)
    (h : run net st0 calls = some (rs, st)) : st.vars = calls.foldl (fun v c => c.updated.getD v) st0.vars := by
  induction calls using snoc_induction generalizing rs st with
  | nil =>
    simp only [run, Option.some.injEq, Prod.mk.injEq] at h
    rw [← h.2]
    rfl
  | snoc cs c ih =>
    obtain ⟨rs0, st1, r, h1, h2, _⟩ := run_snoc net _ st cs c rs h
    have e := ih rs0 st1 h1
    rw [List.foldl_append, ← e]
    cases c with
    | act batch =>
      obtain ⟨rs', _, _, h3⟩ := act_spec net st1 st batch r h2
      subst h3
      rfl
    | independent batch =>
      simp only [exec, Option.some.injEq, Prod.mk.injEq] at h2
      rw [← h2.2]
      rfl
    | observe p ts rs' u =>
      obtain ⟨_, _, h3, _⟩ := observe_spec net st1 st p ts rs' u r h2
      exact h3
    | reset =>
      simp only [exec, Option.some.injEq, Prod.mk.injEq] at h2
      rw [← h2.2]
      rfl

end Verif.Session
