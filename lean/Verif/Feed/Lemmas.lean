import Verif.Feed.Spec

/-!
# Feeding experience: lemmas on arrays and on the forms of states
-/

namespace Verif.Feed

theorem lookup_eq {κ α : Type} [DecidableEq κ] (k : κ) (d : List (κ × α)) : lookup k d = valueOf k d := by
  induction d with
  | nil => rfl
  | cons e r ih =>
    obtain ⟨k', x⟩ := e
    unfold lookup valueOf
    rw [List.find?_cons]
    by_cases h : k' = k
    · simp [h]
    · simp only [h, if_false, decide_false]
      exact ih

theorem size_eq (s : List Nat) : size s = count s := by
  induction s with
  | nil => rfl
  | cons n r ih => show n * size r = n * count r; rw [ih]

theorem count_cons (n : Nat) (s : List Nat) : count (n :: s) = n * count s := rfl

theorem bind_ok {ε α β : Type} (a : α) (f : α → Except ε β) : (Except.ok a >>= f) = f a := rfl

theorem bind_error {ε α β : Type} (e : ε) (f : α → Except ε β) : ((Except.error e : Except ε α) >>= f) = .error e := rfl

theorem mapM_ok {α β : Type} {f : α → Except Err β} {g : α → β} :
    ∀ {l : List α}, (∀ a ∈ l, f a = .ok (g a)) → l.mapM f = .ok (l.map g)
  | [], _ => rfl
  | a :: r, h => by
    rw [List.mapM_cons, h a List.mem_cons_self, bind_ok, mapM_ok (fun b hb => h b (List.mem_cons_of_mem _ hb)), bind_ok]
    rfl

theorem block (c : Nat) : ∀ (rows : List Nd) (i : Nat) (h : i < rows.length), (∀ r ∈ rows, r.data.length = c) →
    ((rows.flatMap Nd.data).drop (i * c)).take c = rows[i].data
  | [], i, h, _ => absurd h (Nat.not_lt_zero i)
  | r :: rs, 0, _, hr => by
    have := hr r List.mem_cons_self
    simp [List.take_append, ← this]
  | r :: rs, i + 1, h, hr => by
    have hl := hr r List.mem_cons_self
    have e : (i + 1) * c = r.data.length + i * c := by rw [hl, Nat.succ_mul, Nat.add_comm]
    rw [List.flatMap_cons, e, ← List.drop_drop, List.drop_left]
    exact block c rs i (Nat.lt_of_succ_lt_succ h) (fun x hx => hr x (List.mem_cons_of_mem _ hx))

theorem unblock (c : Nat) : ∀ (rows : List Nd) (l : List Rat), l.length = rows.length * c →
    (∀ i (h : i < rows.length), (l.drop (i * c)).take c = rows[i].data) → l = rows.flatMap Nd.data
  | [], l, hl, _ => by
    rw [List.length_nil, Nat.zero_mul] at hl
    exact List.eq_nil_of_length_eq_zero hl
  | r :: rs, l, hl, h => by
    have h0 := h 0 (Nat.zero_lt_succ _)
    rw [Nat.zero_mul, List.drop_zero] at h0
    have h1 : l.drop c = rs.flatMap Nd.data := by
      apply unblock c rs
      · rw [List.length_drop, hl, List.length_cons, Nat.succ_mul, Nat.add_sub_cancel]
      · intro i hi
        have := h (i + 1) (Nat.succ_lt_succ hi)
        rw [List.drop_drop, show c + i * c = (i + 1) * c by rw [Nat.succ_mul, Nat.add_comm]]
        exact this
    rw [List.flatMap_cons, ← h1, ← show l.take c = r.data from h0, List.take_append_drop]

theorem length_flatMap_data (c : Nat) : ∀ (rows : List Nd), (∀ r ∈ rows, r.data.length = c) →
    (rows.flatMap Nd.data).length = rows.length * c
  | [], _ => (Nat.zero_mul c).symm
  | r :: rs, h => by
    rw [List.flatMap_cons, List.length_append, h r List.mem_cons_self,
      length_flatMap_data c rs (fun x hx => h x (List.mem_cons_of_mem _ hx)), List.length_cons, Nat.succ_mul, Nat.add_comm]

/-- Rows put together represent these rows. -/
theorem represents_stack (s : List Nat) (rows : List Nd) (hs : ∀ r ∈ rows, r.shape = s) (hp : ∀ r ∈ rows, Proper r) :
    Represents ⟨rows.length :: s, rows.flatMap Nd.data⟩ rows := by
  have hc : ∀ r ∈ rows, r.data.length = count s := fun r hr => by rw [hp r hr, hs r hr]
  refine ⟨length_flatMap_data (count s) rows hc, rfl, fun i h => ?_⟩
  have hb := block (count s) rows i h hc
  have hsh := hs rows[i] (List.getElem_mem h)
  show (⟨s, ((rows.flatMap Nd.data).drop (i * count s)).take (count s)⟩ : Nd) = rows[i]
  rw [hb, ← hsh]

/-- An array is determined by its rows. -/
theorem represents_unique {x : Nd} {rows : List Nd} {s : List Nat} (h : Represents x rows) (hne : rows ≠ [])
    (hs : ∀ r ∈ rows, r.shape = s) : x = ⟨rows.length :: s, rows.flatMap Nd.data⟩ := by
  obtain ⟨hp, hh, hr⟩ := h
  obtain ⟨shape, data⟩ := x
  cases shape with
  | nil => exact absurd hh nofun
  | cons n t =>
    have hn : n = rows.length := Option.some.inj hh
    have hpos : 0 < rows.length := List.length_pos_iff.2 hne
    have h0 := hr 0 hpos
    have ht : t = s := by
      have := congrArg Nd.shape h0
      exact this.trans (hs _ (List.getElem_mem hpos))
    subst ht
    have hdata : data = rows.flatMap Nd.data := by
      apply unblock (count t)
      · rw [← hn]; exact hp
      · intro i hi
        exact congrArg Nd.data (hr i hi)
    rw [hn, hdata]

/-- The array of all values of a name. -/
def stacked (ds : List Dict) (e : String × Nd) : Nd :=
  ⟨(ds.length + 1) :: e.2.shape, (e.2 :: ds.filterMap (valueOf e.1)).flatMap Nd.data⟩

theorem filterMap_some {α β : Type} {f : α → Option β} {P : β → Prop} :
    ∀ {l : List α}, (∀ a ∈ l, ∃ y, f a = some y ∧ P y) → (l.filterMap f).length = l.length ∧ ∀ y ∈ l.filterMap f, P y
  | [], _ => ⟨rfl, nofun⟩
  | a :: r, h => by
    obtain ⟨y, hy, hP⟩ := h a List.mem_cons_self
    obtain ⟨hl, ha⟩ := filterMap_some (fun b hb => h b (List.mem_cons_of_mem _ hb))
    rw [List.filterMap_cons_some hy]
    refine ⟨by rw [List.length_cons, List.length_cons, hl], fun z hz => ?_⟩
    rcases List.mem_cons.1 hz with e | hz
    · subst e; exact hP
    · exact ha z hz

theorem stack_ok {x : Nd} {xs : List Nd} (h : ∀ y ∈ xs, y.shape = x.shape) :
    stack (x :: xs) = .ok ⟨(xs.length + 1) :: x.shape, (x :: xs).flatMap Nd.data⟩ := by
  have : xs.all (fun y => decide (y.shape = x.shape)) = true := by
    rw [List.all_eq_true]
    intro y hy
    exact decide_eq_true (h y hy)
  rw [stack, if_pos this, List.flatMap_cons]

/-- Looking up a name in all dictionaries. -/
theorem mapM_lookup (k : String) : ∀ (ds : List Dict), (∀ d ∈ ds, ∃ y, valueOf k d = some y) →
    ds.mapM (fun d => found .key (lookup k d)) = .ok (ds.filterMap (valueOf k))
  | [], _ => rfl
  | d :: r, h => by
    obtain ⟨y, hy⟩ := h d List.mem_cons_self
    have ih := mapM_lookup k r (fun b hb => h b (List.mem_cons_of_mem _ hb))
    rw [List.mapM_cons, lookup_eq, hy, found, bind_ok, ih, bind_ok, List.filterMap_cons_some hy]
    rfl

theorem stackDicts_ok {d : Dict} {ds : List Dict} (h : SameForm d ds) :
    stackDicts d ds = .ok (d.map (fun e => (some e.1, stacked ds e))) := by
  unfold stackDicts
  apply mapM_ok
  intro e he
  have hall := h.2.2 e he
  obtain ⟨hl, hP⟩ := filterMap_some (P := fun y => y.shape = e.2.shape ∧ Proper y) hall
  rw [mapM_lookup e.1 ds (fun b hb => ⟨_, (hall b hb).choose_spec.1⟩), bind_ok, stack_ok (fun y hy => (hP y hy).1), bind_ok]
  unfold stacked
  rw [hl]
  rfl

theorem stacked_represents {d : Dict} {ds : List Dict} (h : SameForm d ds) {e : String × Nd} (he : e ∈ d) :
    Represents (stacked ds e) (e.2 :: ds.filterMap (valueOf e.1)) ∧ (∀ r ∈ e.2 :: ds.filterMap (valueOf e.1), r.shape = e.2.shape) ∧
      (ds.filterMap (valueOf e.1)).length = ds.length := by
  obtain ⟨hl, hP⟩ := filterMap_some (P := fun y => y.shape = e.2.shape ∧ Proper y) (h.2.2 e he)
  have hs : ∀ r ∈ e.2 :: ds.filterMap (valueOf e.1), r.shape = e.2.shape := by
    intro r hr
    rcases List.mem_cons.1 hr with e' | hr
    · rw [e']
    · exact (hP r hr).1
  have hp : ∀ r ∈ e.2 :: ds.filterMap (valueOf e.1), Proper r := by
    intro r hr
    rcases List.mem_cons.1 hr with e' | hr
    · rw [e']; exact h.2.1 e he
    · exact (hP r hr).2
  have := represents_stack e.2.shape _ hs hp
  rw [List.length_cons, hl] at this
  exact ⟨this, hs, hl⟩

theorem checkRows_ok (n : Nat) : ∀ (f : Flat), (∀ e ∈ f, e.2.shape.head? = some n) → checkRows n f = .ok ()
  | [], _ => rfl
  | (k, x) :: r, h => by
    have hx := h (k, x) List.mem_cons_self
    rw [checkRows]
    cases hs : x.shape with
    | nil => rw [hs] at hx; exact absurd hx nofun
    | cons m t =>
      rw [hs] at hx
      dsimp only
      rw [if_pos (Option.some.inj hx)]
      exact checkRows_ok n r (fun e he => h e (List.mem_cons_of_mem _ he))

theorem checkRows_all (n : Nat) : ∀ (f : Flat), checkRows n f = .ok () → ∀ e ∈ f, e.2.shape.head? = some n
  | [], _ => nofun
  | (k, x) :: r, h => by
    rw [checkRows] at h
    cases hs : x.shape with
    | nil => rw [hs] at h; exact absurd h nofun
    | cons m t =>
      rw [hs] at h
      dsimp only at h
      by_cases hm : m = n
      · rw [if_pos hm] at h
        intro e he
        rcases List.mem_cons.1 he with e' | he
        · rw [e', hs, hm]; rfl
        · exact checkRows_all n r h e he
      · rw [if_neg hm] at h; exact absurd h nofun

theorem allDicts_some : ∀ (ds : List Dict), allDicts (ds.map some) = .ok ds
  | [] => rfl
  | d :: r => by rw [List.map_cons, allDicts, allDicts_some r, bind_ok]; rfl

/-- The result for a list of dictionaries of the same form. -/
theorem processStates_list (spec : List (Key × Ent)) {d : Dict} {ds : List Dict} (h : SameForm d ds) :
    processStates spec (.list d (ds.map some)) =
      .ok ⟨d.map (fun e => (some e.1, stacked ds e)), true, ds.length + 1, some true⟩ := by
  have hl : processList d (ds.map some) = .ok ⟨d.map (fun e => (some e.1, stacked ds e)), true, ds.length + 1, some true⟩ := by
    rw [processList, allDicts_some, bind_ok, stackDicts_ok h, bind_ok]
    rfl
  show (processList d (ds.map some) >>= fun inp => checkRows inp.num inp.states >>= fun _ => pure inp) = _
  rw [hl, bind_ok, checkRows_ok]
  · rfl
  · intro e he
    obtain ⟨a, _, ha⟩ := List.mem_map.1 he
    rw [← ha]
    rfl

/-- The value of a name among arrays derived from values. -/
theorem valueOf_map {κ α β : Type} [DecidableEq κ] (g : κ × α → β) {k : κ} {x : α} : ∀ {d : List (κ × α)}, valueOf k d = some x →
    valueOf k (d.map (fun e => (e.1, g e))) = some (g (k, x))
  | [], h => absurd h nofun
  | (k', y) :: r, h => by
    unfold valueOf at h ⊢
    rw [List.map_cons, List.find?_cons]
    rw [List.find?_cons] at h
    by_cases hk : k' = k
    · subst hk
      simp only [decide_true, Option.map_some, Option.some.injEq] at h ⊢
      rw [h]
    · simp only [hk, decide_false] at h ⊢
      exact valueOf_map g h

theorem cons_ne_tail (n : Nat) (s : List Nat) : n :: s ≠ s := fun h => by
  have := congrArg List.length h
  rw [List.length_cons] at this
  omega

end Verif.Feed
