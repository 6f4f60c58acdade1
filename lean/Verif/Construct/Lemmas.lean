import Verif.Construct.Spec

/-! # Lemmas about parameters, selection by name and update configuration -/

namespace Verif.Construct

open Verif.Family (Val Args find)

/-! ## Parameters -/

theorem unit_bind {ε β : Type} (x : Except ε Unit) (f : Except ε β) (b : β) :
    (x >>= fun _ => f) = .ok b ↔ x = .ok () ∧ f = .ok b := by
  cases x <;> simp [bind, Except.bind]

theorem checkBounds_ok {K : Type} [LT K] [LE K] [DecidableRel (α := K) (· < ·)] (nlt : ∀ a b : K, ¬ a < b ↔ b ≤ a)
    (lo hi : Option K) (b : Bounds K) : checkBounds lo hi b = .ok () ↔ Within lo hi b := by
  obtain ⟨l, h⟩ := b
  unfold checkBounds Within
  rw [unit_bind, unit_bind]
  refine and_congr ?_ (and_congr ?_ ?_)
  · cases l <;> cases h <;> simp [← nlt]
  · cases lo <;> cases l <;> simp [← nlt]
  · cases hi <;> cases h <;> simp [← nlt]

theorem checkConstant_ok {K : Type} [LT K] [LE K] [DecidableRel (α := K) (· < ·)] (nlt : ∀ a b : K, ¬ a < b ↔ b ≤ a)
    (lo hi : Option K) (x : K) :
    checkConstant lo hi x = .ok () ↔ (∀ l, lo = some l → l ≤ x) ∧ (∀ h, hi = some h → x ≤ h) := by
  cases lo <;> cases hi <;> simp [checkConstant, ← nlt] <;> (try split) <;> (try split) <;> simp_all

/-- A constant passes both checks or none. -/
theorem constant_ok {K : Type} [LT K] [LE K] [DecidableRel (α := K) (· < ·)] (nlt : ∀ a b : K, ¬ a < b ↔ b ≤ a)
    (refl : ∀ a : K, a ≤ a) (lo hi : Option K) (x : K) :
    (checkConstant lo hi x = .ok () ∧ checkBounds lo hi ⟨some x, some x⟩ = .ok ()) ↔ Within lo hi ⟨some x, some x⟩ := by
  rw [checkConstant_ok nlt, checkBounds_ok nlt]
  constructor
  · exact fun h => h.2
  · intro h
    refine ⟨⟨?_, ?_⟩, h⟩
    · intro l e
      obtain ⟨y, hy, hl⟩ := h.2.1 l e
      cases hy; exact hl
    · intro l e
      obtain ⟨y, hy, hl⟩ := h.2.2 l e
      cases hy; exact hl

theorem bind_ok {ε α β : Type} (x : Except ε α) (f : α → Except ε β) (b : β) :
    (x >>= f) = .ok b ↔ ∃ a, x = .ok a ∧ f a = .ok b := by
  cases x <;> simp [bind, Except.bind]

theorem int_nlt (a b : Int) : ¬ a < b ↔ b ≤ a := Int.not_lt

theorem rat_nlt (a b : Rat) : ¬ a < b ↔ b ≤ a := Rat.not_lt

theorem intParam_ok (w : World) (lo hi : Option Int) (v : Val) (p : Param Int) :
    intParam w lo hi v = .ok p ↔ IsInt w lo hi v p := by
  have other : ∀ (v : Val), intParam w lo hi v = (do let b ← w.ints v; checkBounds lo hi b; .ok ⟨v, b⟩) →
      intBounds w v = (w.ints v).toOption → (intParam w lo hi v = .ok p ↔ IsInt w lo hi v p) := by
    intro v h1 h2
    rw [h1, bind_ok]
    unfold IsInt
    rw [h2]
    constructor
    · rintro ⟨b, hb, h⟩
      rw [unit_bind, checkBounds_ok int_nlt] at h
      obtain ⟨hw, hp⟩ := h
      cases hp
      exact ⟨rfl, by rw [hb]; rfl, hw⟩
    · rintro ⟨hs, hb, hw⟩
      cases he : w.ints v with
      | error e => rw [he] at hb; cases hb
      | ok b =>
        rw [he] at hb
        cases hb
        refine ⟨_, rfl, ?_⟩
        rw [unit_bind, checkBounds_ok int_nlt]
        refine ⟨hw, ?_⟩
        subst hs; rfl
  cases v with
  | int n =>
    unfold intParam IsInt
    simp only []
    rw [unit_bind, unit_bind, ← and_assoc, constant_ok int_nlt Int.le_refl]
    constructor
    · rintro ⟨h, hp⟩
      cases hp
      exact ⟨rfl, rfl, h⟩
    · rintro ⟨h1, h2, h3⟩
      obtain ⟨s, b⟩ := p
      cases h1
      simp only [intBounds, Option.some.injEq] at h2
      subst h2
      exact ⟨h3, rfl⟩
  | none => simp [intParam, IsInt, intBounds]
  | bool b => simp [intParam, IsInt, intBounds]
  | float q => simp [intParam, IsInt, intBounds]
  | str s => exact other _ rfl rfl
  | dict d => exact other _ rfl rfl
  | other n => exact other _ rfl rfl

theorem floatParam_ok (w : World) (lo hi : Option Rat) (v : Val) (p : Param Rat) :
    floatParam w lo hi v = .ok p ↔ IsFloat w lo hi v p := by
  have other : ∀ (v : Val), floatParam w lo hi v = (do let b ← w.floats v; checkBounds lo hi b; .ok ⟨v, b⟩) →
      floatBounds w v = (w.floats v).toOption → (floatParam w lo hi v = .ok p ↔ IsFloat w lo hi v p) := by
    intro v h1 h2
    rw [h1, bind_ok]
    unfold IsFloat
    rw [h2]
    constructor
    · rintro ⟨b, hb, h⟩
      rw [unit_bind, checkBounds_ok rat_nlt] at h
      obtain ⟨hw, hp⟩ := h
      cases hp
      exact ⟨rfl, by rw [hb]; rfl, hw⟩
    · rintro ⟨hs, hb, hw⟩
      cases he : w.floats v with
      | error e => rw [he] at hb; cases hb
      | ok b =>
        rw [he] at hb
        cases hb
        refine ⟨_, rfl, ?_⟩
        rw [unit_bind, checkBounds_ok rat_nlt]
        refine ⟨hw, ?_⟩
        subst hs; rfl
  cases v with
  | float n =>
    unfold floatParam IsFloat
    simp only []
    rw [unit_bind, unit_bind, ← and_assoc, constant_ok rat_nlt (fun _ => Rat.le_refl)]
    constructor
    · rintro ⟨h, hp⟩
      cases hp
      exact ⟨rfl, rfl, h⟩
    · rintro ⟨h1, h2, h3⟩
      obtain ⟨s, b⟩ := p
      cases h1
      simp only [floatBounds, Option.some.injEq] at h2
      subst h2
      exact ⟨h3, rfl⟩
  | none => simp [floatParam, IsFloat, floatBounds]
  | bool b => simp [floatParam, IsFloat, floatBounds]
  | int q => simp [floatParam, IsFloat, floatBounds]
  | str s => exact other _ rfl rfl
  | dict d => exact other _ rfl rfl
  | other n => exact other _ rfl rfl

/-! ## Selection by name -/

theorem lookup_find {β : Type} (k : Path) (l : List (Path × β)) : lookup k l = (l.find? (fun e => e.1 == k)).map Prod.snd := by
  induction l with
  | nil => rfl
  | cons x r ih =>
    obtain ⟨k', v⟩ := x
    unfold lookup
    by_cases h : k' = k
    · rw [if_pos h, List.find?_cons_of_pos (by simp [h])]; rfl
    · rw [if_neg h, List.find?_cons_of_neg (by simp [h])]; exact ih

theorem entryFor_lookup {β : Type} (entries : List (Path × β)) (name : Path) (type : String) :
    entryFor entries name type = (lookup name entries).or (lookup [type] entries) := by
  unfold entryFor
  rw [lookup_find, lookup_find]
  cases entries.find? (fun e => e.1 == name) <;> rfl

theorem layersOf_entry {β L : Type} (f : β → Layers L) (entries : List (Path × β)) (name : Path) (spec : Item) :
    layersOf f entries name spec = match entryFor entries name spec.type with | some v => f v | none => .none := by
  rw [entryFor_lookup]
  unfold layersOf
  cases lookup name entries with
  | some v => rfl
  | none => cases lookup [spec.type] entries <;> rfl

/-- A name which occurs is found. -/
theorem lookup_mem {β : Type} (k : Path) (l : List (Path × β)) (h : ∃ e ∈ l, e.1 = k) : ∃ v, lookup k l = some v ∧ (k, v) ∈ l := by
  induction l with
  | nil => obtain ⟨e, he, _⟩ := h; cases he
  | cons x r ih =>
    obtain ⟨k', v⟩ := x
    unfold lookup
    by_cases hk : k' = k
    · rw [if_pos hk]; exact ⟨v, rfl, by subst hk; exact List.mem_cons_self ..⟩
    · rw [if_neg hk]
      obtain ⟨e, he, hh⟩ := h
      rcases List.mem_cons.mp he with e1 | e1
      · subst e1; exact absurd hh hk
      · obtain ⟨v', h1, h2⟩ := ih ⟨e, e1, hh⟩
        exact ⟨v', h1, List.mem_cons_of_mem _ h2⟩

theorem lookup_none {β : Type} (k : Path) (l : List (Path × β)) (h : ∀ e ∈ l, e.1 ≠ k) : lookup k l = none := by
  induction l with
  | nil => rfl
  | cons x r ih =>
    obtain ⟨k', v⟩ := x
    unfold lookup
    rw [if_neg (h _ (List.mem_cons_self ..))]
    exact ih (fun e he => h e (List.mem_cons_of_mem _ he))

/-- Different states have different names. -/
theorem same_name (items : Items) (hd : items.Pairwise (fun x y => x.1 ≠ y.1)) (x y : Path × Item) (hx : x ∈ items) (hy : y ∈ items)
    (h : y.1 = x.1) : y = x := by
  induction items with
  | nil => cases hx
  | cons z r ih =>
    rw [List.pairwise_cons] at hd
    rcases List.mem_cons.mp hx with e1 | e1 <;> rcases List.mem_cons.mp hy with e2 | e2
    · rw [e1, e2]
    · subst e1; exact absurd h.symm (hd.1 y e2)
    · subst e2; exact absurd h (hd.1 x e1)
    · exact ih hd.2 e1 e2

/-- The same value for all names. -/
theorem layersOf_all {L : Type} (states : Items) (c : Layers L) (x : Path × Item) (h : x ∈ states) :
    layersOf id (states.map (fun y => (y.1, c))) x.1 x.2 = c := by
  unfold layersOf
  obtain ⟨v, h1, h2⟩ := lookup_mem x.1 (states.map (fun y => (y.1, c))) ⟨(x.1, c), List.mem_map.mpr ⟨x, h, rfl⟩, rfl⟩
  rw [h1]
  obtain ⟨y, _, hy⟩ := List.mem_map.mp h2
  exact (congrArg Prod.snd hy).symm

theorem contains_name (items : Items) (hw : WellFormed items) (x : Path × Item) (h : x ∈ items) : contains items x.1 = .ok true := by
  unfold contains
  have h1 : (items.any (fun y => !y.1.isEmpty && y.1.isPrefixOf x.1 && y.1 != x.1)) = false := by
    rw [List.any_eq_false]
    intro y hy
    simp only [Bool.and_eq_true, not_and, Bool.not_eq_true, bne_eq_false_iff_eq, and_imp]
    intro _ hp
    exact hw.leaves y hy x h (List.isPrefixOf_iff_prefix.mp hp)
  rw [h1]
  simp only [Bool.false_eq_true, if_false]
  congr 1
  rw [List.any_eq_true]
  refine ⟨x, h, ?_⟩
  split
  · assumption
  · exact List.isPrefixOf_iff_prefix.mpr (List.prefix_refl _)

theorem anyMissing_names {β : Type} (items : Items) (hw : WellFormed items) (entries : List (Path × β)) (h : KeysAreNames items entries) :
    anyMissing items (entries.map Prod.fst) = .ok false := by
  induction entries with
  | nil => rfl
  | cons e r ih =>
    obtain ⟨x, hx, he⟩ := h e (List.mem_cons_self ..)
    have hc := contains_name items hw x hx
    rw [he] at hc
    rw [List.map_cons, anyMissing, hc]
    exact ih (fun e' h' => h e' (List.mem_cons_of_mem _ h'))

/-- Words which are no parts of names. -/
theorem contains_free (items : Items) (t : String) (hf : ∀ y ∈ items, t ∉ y.1) : contains items [t] = .ok false := by
  have no : ∀ y ∈ items, [t] <+: y.1 → False := fun y hy hp => hf y hy (hp.subset (List.mem_cons_self ..))
  unfold contains
  have h1 : (items.any (fun y => !y.1.isEmpty && y.1.isPrefixOf [t] && y.1 != [t])) = false := by
    rw [List.any_eq_false]
    intro y hy
    simp only [Bool.and_eq_true, not_and, Bool.not_eq_true, bne_eq_false_iff_eq, and_imp]
    intro he hp
    have hp := List.isPrefixOf_iff_prefix.mp hp
    rcases List.prefix_cons_iff.mp hp with h0 | ⟨r, h0, h3⟩
    · rw [h0] at he; cases he
    · rw [h0, List.prefix_nil.mp h3]
  rw [h1]
  simp only [Bool.false_eq_true, if_false]
  congr 1
  rw [List.any_eq_false]
  intro y hy
  simp only [List.isEmpty_cons, Bool.false_eq_true, if_false, List.isPrefixOf_iff_prefix]
  exact no y hy

/-- Reserved words are no names. -/
theorem contains_reserved (items : Items) (hw : WellFormed items) (t : String) (hr : t ∈ reserved) :
    contains items [t] = .ok false := contains_free items t (fun y hy h => hw.free y hy t h hr)

/-- Types are no names. -/
theorem contains_type (items : Items) (hw : WellFormed items) (t : String) (ht : t = "bool" ∨ t = "int" ∨ t = "float") :
    contains items [t] = .ok false :=
  contains_reserved items hw t (by rcases ht with e | e | e <;> subst e <;> decide)

/-- Paths through names fail. -/
theorem contains_through (items : Items) (x : Path × Item) (hx : x ∈ items) (hn : x.1 ≠ []) (s : String) (t : Path) :
    contains items (x.1 ++ s :: t) = .error .assertion := by
  unfold contains
  rw [if_pos]
  refine List.any_eq_true.mpr ⟨x, hx, ?_⟩
  have h1 : x.1.isEmpty = false := by
    cases h : x.1 with
    | nil => exact (hn h).elim
    | cons a r => rfl
  have h2 : x.1 ≠ x.1 ++ s :: t := fun h => by
    have := congrArg List.length h
    rw [List.length_append, List.length_cons] at this
    omega
  rw [h1, Bool.not_false, Bool.true_and, Bool.and_eq_true]
  exact ⟨List.isPrefixOf_iff_prefix.mpr (List.prefix_append ..), bne_iff_ne.mpr h2⟩

/-- A type among keys which are names or types. -/
theorem anyMissing_types {β : Type} (items : Items) (hw : WellFormed items) (entries : List (Path × β))
    (h : ∀ e ∈ entries, (∃ x ∈ items, x.1 = e.1) ∨ ∃ t, (t = "bool" ∨ t = "int" ∨ t = "float") ∧ e.1 = [t])
    (ht : ∃ e ∈ entries, ∃ t, (t = "bool" ∨ t = "int" ∨ t = "float") ∧ e.1 = [t]) :
    anyMissing items (entries.map Prod.fst) = .ok true := by
  induction entries with
  | nil => obtain ⟨e, he, _⟩ := ht; cases he
  | cons e r ih =>
    rw [List.map_cons, anyMissing]
    rcases h e (List.mem_cons_self ..) with ⟨x, hx, he⟩ | ⟨t, h1, h2⟩
    · have hc := contains_name items hw x hx
      rw [he] at hc
      rw [hc]
      refine ih (fun e' h' => h e' (List.mem_cons_of_mem _ h')) ?_
      obtain ⟨e', he', t, h1, h2⟩ := ht
      rcases List.mem_cons.mp he' with e1 | e1
      · subst e1
        exfalso
        have hr : t ∈ reserved := by rcases h1 with e | e | e <;> subst e <;> decide
        exact hw.free x hx t (by rw [he, h2]; exact List.mem_cons_self ..) hr
      · exact ⟨e', e1, t, h1, h2⟩
    · rw [h2, contains_type items hw t h1]
      rfl

/-! ## Exploration -/

/-- The module of one action. -/
def moduleFor (entries : List (Path × Val)) (name : Path) (type : String) : Val := (entryFor entries name type).getD .none

theorem exploreActions_cons (w : World) (entries : List (Path × Val)) (name : Path) (spec : Item) (rest : Items)
    (ht : spec.type = "bool" ∨ spec.type = "int" ∨ spec.type = "float") :
    exploreActions w entries ((name, spec) :: rest) =
      match moduleFor entries name spec.type with
      | .none => exploreActions w entries rest
      | v => (do
        let p ← floatParam w (some 0) (explorationLimit spec) v
        let ps ← exploreActions w entries rest
        .ok ((name, p) :: ps)) := by
  have hm : moduleOf entries name spec = moduleFor entries name spec.type := by
    unfold moduleOf
    unfold moduleFor
    rw [entryFor_lookup]
    cases lookup name entries with
    | some v => rfl
    | none => cases lookup [spec.type] entries <;> rfl
  have hl : explorationLimit spec = if spec.type = "bool" ∨ spec.type = "int" then some 1 else none := by
    unfold explorationLimit
    rcases ht with e | e | e <;> rw [e] <;> decide
  rw [exploreActions, hm, hl]
  cases moduleFor entries name spec.type <;> first | rfl | (dsimp only; split <;> rfl)

theorem wantedExploration_cons (entries : List (Path × Val)) (name : Path) (spec : Item) (rest : Items) :
    wantedExploration entries ((name, spec) :: rest) =
      match moduleFor entries name spec.type with
      | .none => wantedExploration entries rest
      | v => (name, spec, v) :: wantedExploration entries rest := by
  unfold wantedExploration moduleFor
  rw [List.filterMap_cons]
  dsimp only
  cases entryFor entries name spec.type with
  | none => rfl
  | some v => cases v <;> rfl

theorem exploreActions_ok (w : World) (entries : List (Path × Val)) (actions : Items)
    (ht : ∀ x ∈ actions, x.2.type = "bool" ∨ x.2.type = "int" ∨ x.2.type = "float") (ps : List (Path × Param Rat)) :
    exploreActions w entries actions = .ok ps ↔ Explores w (wantedExploration entries actions) ps := by
  induction actions generalizing ps with
  | nil =>
    constructor
    · intro h; cases h; exact .nil
    · intro h; cases h; rfl
  | cons x rest ih =>
    obtain ⟨name, spec⟩ := x
    have ih := ih (fun y hy => ht y (List.mem_cons_of_mem _ hy))
    rw [exploreActions_cons w entries name spec rest (ht _ (List.mem_cons_self ..)), wantedExploration_cons]
    have step : ∀ v, (do
        let p ← floatParam w (some 0) (explorationLimit spec) v
        let ps ← exploreActions w entries rest
        (.ok ((name, p) :: ps) : Except Err (List (Path × Param Rat)))) = .ok ps ↔
        Explores w ((name, spec, v) :: wantedExploration entries rest) ps := by
      intro v
      rw [bind_ok]
      constructor
      · rintro ⟨p, hp, h⟩
        rw [bind_ok] at h
        obtain ⟨qs, hq, h⟩ := h
        cases h
        exact .cons _ _ _ _ _ _ ((floatParam_ok ..).mp hp) ((ih qs).mp hq)
      · intro h
        cases h with
        | cons _ _ _ p _ qs hp hq =>
          refine ⟨p, (floatParam_ok ..).mpr hp, ?_⟩
          rw [bind_ok]
          exact ⟨qs, (ih qs).mpr hq, rfl⟩
    cases hm : moduleFor entries name spec.type with
    | none => exact ih ps
    | bool b => exact step _
    | int b => exact step _
    | float b => exact step _
    | str b => exact step _
    | dict b => exact step _
    | other b => exact step _

end Verif.Construct
