import Verif.Returns.Refine

/-! Helper lemmas about the specification states reached by allowed histories. -/

namespace Verif.Returns

/-- Record and terminal code of a timestep that was handed over. -/
def label {σ : Type} (x : σ × Nat × Option Rat) : σ × Nat := (x.1, x.2.1)

/-- Record and terminal code of an item. -/
def itemLabel {σ : Type} (x : Item σ) : σ × Nat := (x.1, x.2.1)

theorem attach_label {σ : Type} (L : List (Item σ)) (ret : List Rat) (h : ret.length = L.length) :
    (attach L ret).map label = L.map itemLabel := by
  induction L generalizing ret with
  | nil => simp [attach]
  | cons x L ih =>
    cases ret with
    | nil => simp at h
    | cons g ret =>
      simp at h
      have := ih ret h
      simp only [attach] at this
      simp [attach, label, itemLabel, this]

theorem attach_length {σ : Type} (L : List (Item σ)) (ret : List Rat) (h : ret.length = L.length) :
    (attach L ret).length = L.length := by
  simp [attach, h]

/-- Bookkeeping invariant of the specification. -/
def Ghost.Ok {σ : Type} (u : Setup) (g : Ghost σ) : Prop :=
  g.n ≤ g.cur.length ∧ (u.mode ≠ .circular → g.n = 0) ∧
    g.out.map label = (g.done.flatten ++ g.cur.take g.n).map itemLabel

theorem Ghost.Ok.step {σ : Type} {c : Config σ} {u : Setup} {g : Ghost σ} {o : Op σ} (hg : g.Ok u)
    (hb : ∀ h batch, o = .observe h batch → batch.length = g.pend.length) : (g.step c u o).Ok u := by
  obtain ⟨hn, hz, ho⟩ := hg
  cases o with
  | act s => exact ⟨hn, hz, ho⟩
  | observe h batch =>
    have hb := hb h batch rfl
    have hcl : (g.cur ++ g.pend.zip batch).length = g.cur.length + g.pend.length := by simp [hb]
    have htake : g.cur.take g.n = (g.cur ++ g.pend.zip batch).take g.n := by
      rw [List.take_append_of_le_length hn]
    simp only [Ghost.step]
    generalize g.cur ++ g.pend.zip batch = X at hcl htake
    cases ht : isTerminal batch with
    | true =>
      simp only [if_true]
      refine ⟨Nat.zero_le _, fun _ => rfl, ?_⟩
      simp only [List.map_append, ho, List.flatten_append, List.flatten_cons, List.flatten_nil, List.append_nil,
        List.take_nil, List.append_assoc, List.map_drop]
      congr 1
      rw [attach_label _ _ (by rw [allReturns_length, finished_length]), htake, List.map_take,
        List.take_append_drop]
    | false =>
      simp only [Bool.false_eq_true, if_false]
      generalize hm : (if u.mode = .circular then max g.n (X.length - h) else 0) = m
      by_cases hmode : u.mode = .circular
      · rw [if_pos hmode] at hm
        refine ⟨by simp only; omega, fun h => absurd hmode h, ?_⟩
        simp only [List.map_append, ho, List.append_assoc, List.map_drop, List.map_take]
        congr 1
        rw [attach_label _ _ (by rw [allReturns_length, plain_length]), ← List.map_take, htake, List.map_take]
        have : m = g.n + (m - g.n) := by omega
        conv => rhs; rw [this]
        rw [List.take_add]
      · rw [if_neg hmode] at hm
        refine ⟨by simp only; omega, fun _ => hm.symm, ?_⟩
        subst hm
        simp only [Nat.zero_sub, List.take_zero, List.append_nil, ho, hz hmode]

/-- What an episode contributes to the log if the horizon is `h` throughout. -/
def contrib {σ : Type} (c : Config σ) (u : Setup) (h : Nat) (ep : List (Item σ)) : List (σ × Nat × Option Rat) :=
  attach ep (allReturns c.gamma c.trace (if u.episodeHorizon then ep.length else h) (finished c ep))

/-- Invariant of histories with constant horizon. -/
def Ghost.Const {σ : Type} (c : Config σ) (u : Setup) (h : Nat) (g : Ghost σ) : Prop :=
  (g.n = 0 ∨ g.n + h ≤ g.cur.length) ∧ (u.mode ≠ .circular → g.n = 0) ∧
    g.out = g.done.flatMap (contrib c u h) ++
      (attach g.cur (allReturns c.gamma c.trace h (plain c g.cur))).take g.n

theorem take_stable {σ : Type} (c : Config σ) (h n : Nat) (A X : List (Item σ)) (hn : n = 0 ∨ n + h ≤ A.length)
    (P : List (Rat × Rat)) (hP : P = plain c A ++ X.map fun x => (x.2.2, c.ev x.1)) :
    (attach (A ++ X) (allReturns c.gamma c.trace h P)).take n =
      (attach A (allReturns c.gamma c.trace h (plain c A))).take n := by
  rcases hn with h0 | h0
  · simp [h0]
  · rw [attach_take, attach_take, List.take_append_of_le_length (by omega), hP,
      allReturns_take_append _ _ _ _ _ _ (by rw [plain_length]; omega)]

theorem take_stable' {σ : Type} (c : Config σ) (h n : Nat) (A X : List (Item σ)) (hX : X ≠ [])
    (hn : n = 0 ∨ n + h ≤ A.length) :
    (attach (A ++ X) (allReturns c.gamma c.trace h (finished c (A ++ X)))).take n =
      (attach A (allReturns c.gamma c.trace h (plain c A))).take n := by
  rcases hn with h0 | h0
  · simp [h0]
  · rw [attach_take, attach_take, List.take_append_of_le_length (by omega), finished_append _ _ _ hX,
      allReturns_take_append _ _ _ _ _ _ (by rw [plain_length]; omega)]

theorem Ghost.Const.step {σ : Type} {c : Config σ} {u : Setup} {h : Nat} {g : Ghost σ} {o : Op σ}
    (hu : u.mode = .circular → u.episodeHorizon = false) (hg : g.Const c u h)
    (hb : ∀ h' batch, o = .observe h' batch → batch.length = g.pend.length ∧ h' = h) : (g.step c u o).Const c u h := by
  obtain ⟨hn, hz, ho⟩ := hg
  cases o with
  | act s => exact ⟨hn, hz, ho⟩
  | observe h' batch =>
    obtain ⟨hb, hh⟩ := hb h' batch rfl
    subst hh
    have hcl : (g.cur ++ g.pend.zip batch).length = g.cur.length + g.pend.length := by simp [hb]
    simp only [Ghost.step]
    cases ht : isTerminal batch with
    | true =>
      simp only [if_true]
      refine ⟨Or.inl rfl, fun _ => rfl, ?_⟩
      simp only [List.take_zero, List.append_nil, List.flatMap_append, List.flatMap_cons, List.flatMap_nil, ho,
        List.append_assoc]
      congr 1
      obtain ⟨A, t, r, e, _⟩ := isTerminal_iff ht
      have hXne : g.pend.zip batch ≠ [] := by
        intro hX
        have hl : (g.pend.zip batch).length = batch.length := by simp [hb]
        rw [hX, e] at hl
        simp at hl
      have hst : (attach g.cur (allReturns c.gamma c.trace h' (plain c g.cur))).take g.n =
          (contrib c u h' (g.cur ++ g.pend.zip batch)).take g.n := by
        by_cases hmode : u.mode = .circular
        · unfold contrib
          rw [hu hmode]
          exact (take_stable' c h' g.n g.cur _ hXne hn).symm
        · simp [hz hmode]
      rw [hst]
      exact List.take_append_drop g.n (contrib c u h' (g.cur ++ g.pend.zip batch))
    | false =>
      simp only [Bool.false_eq_true, if_false]
      have hst := take_stable c h' g.n g.cur (g.pend.zip batch) hn (plain c (g.cur ++ g.pend.zip batch))
        (by rw [plain_append]; rfl)
      by_cases hmode : u.mode = .circular
      · simp only [if_pos hmode]
        refine ⟨?_, fun h => absurd hmode h, ?_⟩
        · simp only [hcl]
          omega
        · simp only [ho, List.append_assoc]
          congr 1
          rw [← hst]
          generalize hm : max g.n ((g.cur ++ g.pend.zip batch).length - h') = m
          have : m = g.n + (m - g.n) := by omega
          conv => rhs; rw [this]
          rw [List.take_add]
      · simp only [if_neg hmode]
        refine ⟨Or.inl rfl, fun _ => rfl, ?_⟩
        simp only [Nat.zero_sub, List.take_zero, List.append_nil, ho, hz hmode]

theorem always_ok {σ : Type} (c : Config σ) (u : Setup) (bo hmax met : Option Nat) (ops : List (Op σ)) :
    ∀ g : Ghost σ, g.Ok u → Always c u (Allowed bo hmax met) g ops → (g.run c u ops).Ok u := by
  induction ops with
  | nil => intro g hg _; exact hg
  | cons o ops ih =>
    intro g hg ha
    refine ih _ (hg.step ?_) ha.2
    intro h batch e
    have h1 := ha.1
    rw [e] at h1
    exact h1.1

/-- The horizon is `h` in all observe calls. -/
def ConstHorizon {σ : Type} (h : Nat) (ops : List (Op σ)) : Prop :=
  ∀ h' batch, Op.observe h' batch ∈ ops → h' = h

theorem always_const {σ : Type} (c : Config σ) (u : Setup) (bo hmax met : Option Nat) (h : Nat)
    (hu : u.mode = .circular → u.episodeHorizon = false) (ops : List (Op σ)) :
    ∀ g : Ghost σ, g.Const c u h → Always c u (Allowed bo hmax met) g ops → ConstHorizon h ops →
      (g.run c u ops).Const c u h := by
  induction ops with
  | nil => intro g hg _ _; exact hg
  | cons o ops ih =>
    intro g hg ha hc
    refine ih _ (hg.step hu ?_) ha.2 (fun h' b hm => hc h' b (List.mem_cons_of_mem _ hm))
    intro h' batch e
    have h1 := ha.1
    rw [e] at h1
    exact ⟨h1.1, hc h' batch (by rw [e]; exact List.mem_cons_self)⟩

theorem circular_horizon {bo hmax met : Option Nat} {par : Nat} {u : Setup}
    (hu : Setup.ofOptions bo hmax met par = some u) : u.mode = .circular → u.episodeHorizon = false := by
  intro hmode
  unfold Setup.ofOptions at hu
  cases bo with
  | none =>
    cases met with
    | none => simp at hu
    | some M => simp at hu; rw [← hu] at hmode; simp at hmode
  | some B =>
    cases hmax with
    | none =>
      cases met with
      | none => simp at hu
      | some M => simp at hu; rw [← hu] at hmode; simp at hmode
    | some hmv =>
      by_cases hp : par > 1
      · cases met with
        | none => simp [hp] at hu
        | some M => simp [hp] at hu; rw [← hu] at hmode; simp at hmode
      · simp [hp] at hu
        rw [← hu]

/-- The specification state after a history. -/
def final {σ : Type} (c : Config σ) (u : Setup) (ops : List (Op σ)) : Ghost σ := Ghost.init.run c u ops

theorem ghost_init_ok {σ : Type} (u : Setup) : (Ghost.init (σ := σ)).Ok u := by
  simp [Ghost.init, Ghost.Ok]

theorem ghost_init_const {σ : Type} (c : Config σ) (u : Setup) (h : Nat) : (Ghost.init (σ := σ)).Const c u h := by
  simp [Ghost.init, Ghost.Const]

/-- With value estimates zero the λ=1 return is the textbook discounted sum. -/
theorem lamReturn_one (γ : Rat) (h : Nat) (P : List (Rat × Rat)) (hP : ∀ p ∈ P, p.2 = 0) :
    lamReturn γ 1 h P = discSum γ h (P.map Prod.fst) := by
  have hshift : ∀ (L : List Rat) (k : Nat), ((L.zipIdx (k + 1)).map (fun p => γ ^ p.2 * p.1)).sum =
      γ * ((L.zipIdx k).map (fun p => γ ^ p.2 * p.1)).sum := by
    intro L
    induction L with
    | nil => intro k; simp
    | cons x L ih =>
      intro k
      simp only [List.zipIdx_cons, List.map_cons, List.sum_cons, ih (k + 1)]
      rw [Rat.pow_succ]
      grind
  induction P generalizing h with
  | nil => cases h <;> simp [lamReturn, discSum]
  | cons p P ih =>
    obtain ⟨r, v⟩ := p
    cases h with
    | zero =>
      have := hP (r, v) (by simp)
      simp only at this
      simp [lamReturn, discSum, this]
    | succ h =>
      have ih := ih h (fun p hp => hP p (List.mem_cons_of_mem _ hp))
      rw [lamReturn, ih]
      unfold discSum
      simp only [List.map_cons, List.take_succ_cons, List.zipIdx_cons, List.sum_cons, hshift]
      grind

theorem attach_textbook {σ : Type} (c : Config σ) (h : Nat) (L : List (Item σ)) (P : List (Rat × Rat))
    (h1 : P.map Prod.fst = rews L) (h2 : ∀ p ∈ P, p.2 = 0) :
    attach L (allReturns c.gamma 1 h P) = textbook c.gamma h L := by
  induction L generalizing P with
  | nil => simp [attach, textbook]
  | cons x L ih =>
    cases P with
    | nil => simp [rews] at h1
    | cons p P =>
      have h1' := h1
      simp only [rews, List.map_cons, List.cons.injEq] at h1'
      have e := ih P h1'.2 (fun q hq => h2 q (List.mem_cons_of_mem _ hq))
      simp only [attach] at e
      simp only [attach, allReturns, List.zipWith_cons_cons, textbook, e]
      rw [lamReturn_one _ _ _ h2, h1]
      rfl

theorem done_codes {σ : Type} (c : Config σ) (u : Setup) (bo hmax met : Option Nat) (ops : List (Op σ)) :
    ∀ g : Ghost σ, Always c u (Allowed bo hmax met) g ops → Always c u EndsRegularly g ops →
    (∀ ep ∈ g.done, ∃ A s r, ep = A ++ [(s, 1, r)]) →
    ∀ ep ∈ (g.run c u ops).done, ∃ A s r, ep = A ++ [(s, 1, r)] := by
  induction ops with
  | nil => intro g _ _ h; exact h
  | cons o ops ih =>
    intro g ha he hd
    refine ih _ ha.2 he.2 ?_
    cases o with
    | act s => exact hd
    | observe h batch =>
      have hb := ha.1.1
      have he1 := he.1
      simp only [Ghost.step]
      cases ht : isTerminal batch with
      | false => exact hd
      | true =>
        simp only [if_true]
        intro ep hep
        rcases List.mem_append.mp hep with h1 | h1
        · exact hd ep h1
        · simp only [List.mem_singleton] at h1
          obtain ⟨A, t, r, e, _⟩ := isTerminal_iff ht
          have he2 := he1 ht
          have ht1 : t = 1 := by rw [e] at he2; simpa [List.getLastD_eq_getLast?] using he2
          rcases eq_nil_or_concat' g.pend with hp | ⟨B, s, hp⟩
          · rw [hp, e] at hb; simp at hb
          · refine ⟨g.cur ++ B.zip A, s, r, ?_⟩
            rw [h1, hp, e, ht1]
            rw [hp, e] at hb
            simp at hb
            rw [List.zip_append (by omega)]
            simp

theorem regular_of_ends {σ : Type} (c : Config σ) (hl : c.lam = none) (hp : c.predTerm = false) (u : Setup)
    (ops : List (Op σ)) : ∀ g : Ghost σ, Always c u EndsRegularly g ops → Always c u (Regular c) g ops := by
  induction ops with
  | nil => intro g _; trivial
  | cons o ops ih =>
    intro g h
    refine ⟨?_, ih _ h.2⟩
    cases o with
    | act s => trivial
    | observe h' batch =>
      intro ht
      have := h.1 ht
      exact ⟨Or.inr (by rw [Config.boots, hp, this]; rfl), fun h => absurd hl h⟩

theorem flatMap_congr_mem {α β : Type} {f g : α → List β} (L : List α) (h : ∀ x ∈ L, f x = g x) :
    L.flatMap f = L.flatMap g := by
  induction L with
  | nil => rfl
  | cons x L ih =>
    rw [List.flatMap_cons, List.flatMap_cons, h x List.mem_cons_self,
      ih (fun y hy => h y (List.mem_cons_of_mem _ hy))]

theorem Always.append {σ : Type} {c : Config σ} {u : Setup} {P : Ghost σ → Op σ → Prop} (ops : List (Op σ)) (o : Op σ) :
    ∀ g : Ghost σ, Always c u P g (ops ++ [o]) → Always c u P g ops := by
  induction ops with
  | nil => intro g _; trivial
  | cons x ops ih => intro g h; exact ⟨h.1, ih _ h.2⟩

theorem dropAbortReward_concat {σ : Type} (A : List (Item σ)) (s : σ) (t : Nat) (r : Rat) :
    dropAbortReward (A ++ [(s, t, r)]) = A ++ [(s, t, if t = 1 then r else 0)] := by
  induction A with
  | nil => rfl
  | cons x A ih =>
    cases hA : A ++ [(s, t, r)] with
    | nil => simp at hA
    | cons y L => rw [List.cons_append, hA, dropAbortReward, ← hA, ih]; rfl

theorem textbook_congr {σ : Type} (γ : Rat) (h : Nat) (A B : List (Item σ)) (hA : A.map itemLabel = B.map itemLabel)
    (hR : rews A = rews B) : textbook γ h A = textbook γ h B := by
  induction A generalizing B with
  | nil => cases B <;> simp_all
  | cons x A ih =>
    cases B with
    | nil => simp at hA
    | cons y B =>
      have hR' := hR
      simp only [List.map_cons, List.cons.injEq, rews, itemLabel, Prod.mk.injEq] at hA hR'
      rw [textbook, textbook, ih B hA.2 hR'.2, hA.1.1, hA.1.2]
      have : ((x :: A).map fun z => z.2.2) = ((y :: B).map fun z => z.2.2) := hR
      rw [this]

/-- Everything observed is either in a finished episode or in the current one. -/
theorem observed_eq {σ : Type} (c : Config σ) (u : Setup) (bo hmax met : Option Nat) (ops : List (Op σ)) :
    ∀ (g : Ghost σ), Always c u (Allowed bo hmax met) g ops →
    (g.run c u ops).done.flatten ++ (g.run c u ops).cur =
      g.done.flatten ++ g.cur ++ (g.pend ++ acted ops).zip (observed ops) := by
  induction ops with
  | nil => intro g _; simp [Ghost.run, observed]
  | cons o ops ih =>
    intro g ha
    have e := ih _ ha.2
    have hrun : g.run c u (o :: ops) = (g.step c u o).run c u ops := rfl
    rw [hrun, e]
    cases o with
    | act s =>
      simp [Ghost.step, acted, observed]
    | observe h batch =>
      have hb := ha.1.1
      have hact : acted (Op.observe h batch :: ops) = acted ops := by simp [acted]
      have hobs : observed (Op.observe h batch :: ops) = batch ++ observed ops := by simp [observed]
      rw [hact, hobs, List.zip_append hb.symm]
      simp only [Ghost.step]
      cases ht : isTerminal batch with
      | true => simp
      | false => simp

end Verif.Returns
