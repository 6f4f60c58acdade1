import Verif.Construct.Lemmas

/-!
# Property C106: preprocessing of states and exploration of actions are chosen by name and type

* `preprocessing_partial`, `default_preprocessing`, `exploration_partial`, `exploration_global`, `exploration_default`
* `layer_dictionary`, `exploration_dictionary`, `exploration_constant`: one layer or parameter, given as a dictionary,
* `through_rejected`: names below a name are rejected,
* `types_violation`, `types_differ_violation`: preprocessing per type of state is not supported,
* `group_violation`: preprocessing for a group of states is ignored,
* `exploration_types_violation`: exploration per type of action is not supported,
* `probability_violation`: a probability above one is accepted.
-/

namespace Verif.Props.Choice

open Verif.Construct
open Verif.Family (Val)

variable {L : Type}

/-- C106, partial: every state gets the layers which are wanted for it, for dictionaries whose keys are names of states.
Missing: keys which are types (`types_violation`) or groups (`group_violation`). -/
theorem preprocessing_partial (states : Items) (hw : WellFormed states) (p : Preprocessing L)
    (hk : ∀ entries, p = .dict entries → KeysAreNames states entries) :
    preprocessing states p = .ok (states.map (fun x => (x.1, wantedLayers p x.1 x.2))) := by
  cases p with
  | none =>
    unfold preprocessing
    dsimp only
    congr 1
    refine List.map_congr_left (fun x hx => ?_)
    rw [layersOf_all states _ x hx]; rfl
  | one l =>
    unfold preprocessing
    dsimp only
    congr 1
    refine List.map_congr_left (fun x hx => ?_)
    rw [layersOf_all states _ x hx]; rfl
  | dict entries =>
    unfold preprocessing
    dsimp only
    rw [anyMissing_names states hw entries (hk _ rfl)]
    show Except.ok _ = _
    congr 1
    refine List.map_congr_left (fun x hx => ?_)
    rw [layersOf_entry]
    unfold wantedLayers
    dsimp only
    cases entryFor entries x.1 x.2.type with
    | none => rfl
    | some v => cases v <;> rfl
  | linear =>
    unfold preprocessing
    dsimp only
    congr 1
    refine List.map_congr_left (fun x hx => ?_)
    unfold wantedLayers layersOf
    dsimp only
    by_cases hb : x.2.type = "float" ∧ x.2.hasMin = true ∧ x.2.hasMax = true
    · rw [if_pos hb]
      obtain ⟨v, h1, _⟩ := lookup_mem x.1
        ((states.filter (fun x => x.2.type == "float" && x.2.hasMin && x.2.hasMax)).map (fun x => (x.1, ())))
        ⟨(x.1, ()), List.mem_map.mpr ⟨x, List.mem_filter.mpr ⟨hx, by simp [hb.1, hb.2.1, hb.2.2]⟩, rfl⟩, rfl⟩
      rw [h1]
    · rw [if_neg hb, lookup_none, lookup_none]
      · intro e he hn
        obtain ⟨y, hy, rfl⟩ := List.mem_map.mp he
        have hy := (List.mem_filter.mp hy).1
        dsimp only at hn
        refine hw.free y hy x.2.type (by rw [hn]; exact List.mem_cons_self ..) ?_
        rcases hw.types x hx with e | e | e <;> rw [e] <;> decide
      · intro e he hn
        obtain ⟨y, hy, rfl⟩ := List.mem_map.mp he
        obtain ⟨hy, hf⟩ := List.mem_filter.mp hy
        have hxy : y = x := same_name states hw.distinct x y hx hy hn
        subst hxy
        simp only [Bool.and_eq_true, beq_iff_eq] at hf
        exact hb ⟨hf.1.1, hf.1.2, hf.2⟩

/-- Two states. -/
def two : Items := [(["a"], ⟨"float", true, true⟩), (["b"], ⟨"int", false, false⟩)]

theorem two_wellFormed : WellFormed two where
  types := by decide
  free := by decide
  distinct := by decide
  leaves := by decide

theorem two_keys {β : Type} (v : β) : KeysAreNames two [(["b"], v)] := by
  intro e he
  cases List.mem_singleton.mp he
  exact ⟨_, .tail _ (.head _), rfl⟩

example : preprocessing two (.dict [(["b"], some 7)]) = .ok [(["a"], .none), (["b"], .given 7)] :=
  preprocessing_partial two two_wellFormed (.dict [(["b"], some 7)]) (fun entries h => by cases h; exact two_keys _)

/-- By default exactly the bounded float states are normalized. -/
theorem default_preprocessing (states : Items) (hw : WellFormed states) (r : List (Path × Layers L))
    (h : preprocessing states .linear = .ok r) :
    r.map Prod.fst = states.map Prod.fst ∧
    ∀ x ∈ states, ∀ l, (x.1, l) ∈ r →
      (l = .linear ↔ x.2.type = "float" ∧ x.2.hasMin = true ∧ x.2.hasMax = true) ∧ (l = .linear ∨ l = .none) := by
  rw [preprocessing_partial states hw .linear (fun _ e => by cases e)] at h
  cases h
  refine ⟨by rw [List.map_map]; rfl, ?_⟩
  intro x hx l hl
  obtain ⟨y, hy, e⟩ := List.mem_map.mp hl
  have e1 : y.1 = x.1 := (Prod.mk.inj e).1
  have e2 : wantedLayers .linear y.1 y.2 = l := (Prod.mk.inj e).2
  have hxy : y = x := same_name states hw.distinct x y hx hy e1
  subst hxy
  rw [← e2]
  unfold wantedLayers
  dsimp only
  split <;> simp_all

example : preprocessing (L := Nat) two .linear = .ok [(["a"], .linear), (["b"], .none)] :=
  preprocessing_partial two two_wellFormed .linear (fun _ e => by cases e)

/-- One layer, given as a dictionary with its type, is used for all states. -/
theorem layer_dictionary (states : Items) (hw : WellFormed states) (l : Option L) (rest : List (Path × Option L)) :
    preprocessing states (.dict ((["type"], l) :: rest)) = .ok (states.map (fun x => (x.1, .whole ((["type"], l) :: rest)))) := by
  unfold preprocessing
  dsimp only
  rw [List.map_cons, anyMissing, contains_reserved states hw "type" (by decide)]
  show Except.ok (states.map _) = _
  congr 1
  refine List.map_congr_left (fun x hx => ?_)
  rw [layersOf_all states _ x hx]

example : preprocessing two (.dict [(["type"], some 7)]) = .ok [(["a"], .whole [(["type"], some 7)]), (["b"], .whole [(["type"], some 7)])] :=
  layer_dictionary two two_wellFormed (some 7) []

/-- Preprocessing for something below a state is rejected. -/
theorem through_rejected (states : Items) (x : Path × Item) (hx : x ∈ states) (hn : x.1 ≠ []) (s : String) (t : Path) (l : Option L)
    (rest : List (Path × Option L)) : preprocessing states (.dict ((x.1 ++ s :: t, l) :: rest)) = .error .assertion := by
  unfold preprocessing
  dsimp only
  rw [List.map_cons, anyMissing, contains_through states x hx hn s t]
  rfl

example : preprocessing two (.dict [(["a", "c"], some 7)]) = .error .assertion :=
  through_rejected two _ (List.mem_cons_self ..) (List.cons_ne_nil _ _) "c" [] (some 7) []

/-- C106, violated: if a type of state is a key, then the whole dictionary is used as the specification of a layer for every
state. -/
theorem types_violation (states : Items) (hw : WellFormed states) (entries : List (Path × Option L))
    (h : ∀ e ∈ entries, (∃ x ∈ states, x.1 = e.1) ∨ ∃ t, (t = "bool" ∨ t = "int" ∨ t = "float") ∧ e.1 = [t])
    (ht : ∃ e ∈ entries, ∃ t, (t = "bool" ∨ t = "int" ∨ t = "float") ∧ e.1 = [t]) :
    preprocessing states (.dict entries) = .ok (states.map (fun x => (x.1, .whole entries))) := by
  unfold preprocessing
  dsimp only
  rw [anyMissing_types states hw entries h ht]
  show Except.ok _ = _
  congr 1
  refine List.map_congr_left (fun x hx => ?_)
  rw [layersOf_all states _ x hx]

/-- C106, violated: normalization of all float states is also given to the other ones, as an invalid specification. -/
theorem types_differ_violation (l : L) :
    WellFormed two ∧ wantedLayers (.dict [(["float"], some l)]) ["a"] ⟨"float", true, true⟩ = .given l ∧
    wantedLayers (.dict [(["float"], some l)]) ["b"] ⟨"int", false, false⟩ = .none ∧
    preprocessing two (.dict [(["float"], some l)]) =
      .ok [(["a"], .whole [(["float"], some l)]), (["b"], .whole [(["float"], some l)])] := by
  refine ⟨two_wellFormed, rfl, rfl, ?_⟩
  refine types_violation two two_wellFormed _ ?_ ?_
  · intro e he
    cases List.mem_singleton.mp he
    exact .inr ⟨"float", .inr (.inr rfl), rfl⟩
  · exact ⟨_, List.mem_singleton.mpr rfl, "float", .inr (.inr rfl), rfl⟩

/-- States in a group. -/
def grouped : Items := [(["g", "a"], ⟨"float", false, false⟩), (["g", "b"], ⟨"float", false, false⟩)]

/-- C106, violated: preprocessing for a group of states is accepted and ignored. -/
theorem group_violation (l : L) :
    WellFormed grouped ∧
    preprocessing grouped (.dict [(["g"], some l)]) = .ok [(["g", "a"], .none), (["g", "b"], .none)] := by
  refine ⟨⟨by decide, by decide, by decide, by decide⟩, ?_⟩
  have h : anyMissing grouped ([(["g"], some l)].map Prod.fst) = .ok false := by
    rfl
  unfold preprocessing
  dsimp only
  rw [h]
  rfl

/-- C106, partial: exploration per name is accepted exactly if all values are valid, and every action has its own parameter,
a probability for `bool` and `int` actions.  Missing: types as keys (`exploration_types_violation`), global exploration
(`probability_violation`). -/
theorem exploration_partial (w : World) (actions : Items) (hw : WellFormed actions) (entries : List (Path × Val))
    (hk : KeysAreNames actions entries) (r : Explore) :
    exploration w actions (.dict entries) = .ok r ↔
      ∃ ps, r = .perAction ps ∧ Explores w (wantedExploration entries actions) ps := by
  unfold exploration
  dsimp only
  rw [anyMissing_names actions hw entries hk]
  show (do let ps ← exploreActions w entries actions; .ok (Explore.perAction ps)) = _ ↔ _
  rw [bind_ok]
  constructor
  · rintro ⟨ps, h, e⟩
    cases e
    exact ⟨ps, rfl, (exploreActions_ok w entries actions hw.types ps).mp h⟩
  · rintro ⟨ps, rfl, h⟩
    exact ⟨ps, (exploreActions_ok w entries actions hw.types ps).mpr h, rfl⟩

/-- No parameters besides constants. -/
def constants : World := ⟨fun _ => .error .type, fun _ => .error .type⟩

theorem half_within (hi : Option Rat) (h : hi = none ∨ hi = some 1) : Within (some 0) hi ⟨some (1 / 2 : Rat), some (1 / 2)⟩ := by
  refine ⟨?_, ?_, ?_⟩
  · intro l h e1 e2; cases e1; cases e2; exact Rat.le_refl
  · intro x e; cases e; exact ⟨_, rfl, by decide +kernel⟩
  · intro x e
    rcases h with h | h
    · rw [h] at e; cases e
    · rw [h] at e; cases e; exact ⟨_, rfl, by decide +kernel⟩

example : ∃ r, exploration constants two (.dict [(["b"], .float (1 / 2))]) = .ok r :=
  ⟨_, (exploration_partial constants two two_wellFormed _ (two_keys _)
    (.perAction [(["b"], ⟨.float (1 / 2), ⟨some (1 / 2), some (1 / 2)⟩⟩)])).mpr
    ⟨_, rfl, .cons _ ⟨"int", false, false⟩ _ _ _ _ ⟨rfl, rfl, half_within _ (.inr rfl)⟩ .nil⟩⟩

/-- Global exploration is one parameter for all actions, and not negative. -/
theorem exploration_global (w : World) (actions : Items) (v : Val) (r : Explore) :
    exploration w actions (.one v) = .ok r ↔ ∃ p, r = .global p ∧ IsFloat w (some 0) none v p := by
  unfold exploration
  dsimp only
  rw [bind_ok]
  constructor
  · rintro ⟨p, h, e⟩
    cases e
    exact ⟨p, rfl, (floatParam_ok ..).mp h⟩
  · rintro ⟨p, rfl, h⟩
    exact ⟨p, (floatParam_ok ..).mpr h, rfl⟩

example : ∃ r, exploration constants two (.one (.float (1 / 2))) = .ok r :=
  ⟨_, (exploration_global constants two (.float (1 / 2)) _).mpr ⟨⟨.float (1 / 2), ⟨some (1 / 2), some (1 / 2)⟩⟩, rfl, rfl, rfl,
    half_within _ (.inl rfl)⟩⟩

/-- A parameter given as a dictionary with its type is one parameter for all actions, and not negative. -/
theorem exploration_dictionary (w : World) (actions : Items) (hw : WellFormed actions) (v : Val) (rest : List (Path × Val)) (r : Explore) :
    exploration w actions (.dict ((["type"], v) :: rest)) = .ok r ↔
      ∃ p, r = .global p ∧ IsFloat w (some 0) none (.dict (("type", v) :: rest.map (fun x => ("/".intercalate x.1, x.2)))) p := by
  unfold exploration
  dsimp only
  rw [List.map_cons, anyMissing, contains_reserved actions hw "type" (by decide)]
  show (do let p ← dictParam w (some 0) none ((["type"], v) :: rest); .ok (Explore.global p)) = _ ↔ _
  have hd : dictParam w (some 0) none ((["type"], v) :: rest) =
      floatParam w (some 0) none (.dict (("type", v) :: rest.map (fun x => ("/".intercalate x.1, x.2)))) := rfl
  rw [hd, bind_ok]
  constructor
  · rintro ⟨p, h, e⟩
    cases e
    exact ⟨p, rfl, (floatParam_ok ..).mp h⟩
  · rintro ⟨p, rfl, h⟩
    exact ⟨p, (floatParam_ok ..).mpr h, rfl⟩

example : WellFormed two := two_wellFormed

/-- A constant given as a dictionary, unless an action is called `value`. -/
theorem exploration_constant (w : World) (actions : Items) (hn : ∀ x ∈ actions, "value" ∉ x.1) (q : Rat) (r : Explore) :
    exploration w actions (.dict [(["value"], .float q)]) = .ok r ↔ 0 ≤ q ∧ r = .global ⟨.float q, ⟨some q, some q⟩⟩ := by
  have h1 : exploration w actions (.dict [(["value"], .float q)]) = exploration w actions (.one (.float q)) := by
    unfold exploration
    dsimp only
    rw [List.map_cons, anyMissing, contains_free actions "value" hn]
    rfl
  rw [h1, exploration_global]
  constructor
  · rintro ⟨p, rfl, h2, h3, h4⟩
    obtain ⟨v, b⟩ := p
    cases h2
    cases h3
    obtain ⟨y, hy, hle⟩ := h4.2.1 0 rfl
    cases hy
    exact ⟨hle, rfl⟩
  · rintro ⟨h, rfl⟩
    refine ⟨_, rfl, rfl, rfl, ?_, ?_, ?_⟩
    · intro l h e1 e2; cases e1; cases e2; exact Rat.le_refl
    · intro x e; cases e; exact ⟨q, rfl, h⟩
    · intro x e; cases e

example : ∀ x ∈ two, "value" ∉ x.1 := by decide

/-- Without the argument there is no exploration. -/
theorem exploration_default (w : World) (actions : Items) :
    exploration w actions .none = .ok (.global ⟨.float 0, ⟨some 0, some 0⟩⟩) := by
  unfold exploration
  dsimp only
  rw [bind_ok]
  refine ⟨_, (floatParam_ok ..).mpr ⟨rfl, rfl, ?_, ?_, ?_⟩, rfl⟩
  · intro l h e1 e2; cases e1; cases e2; exact Rat.le_refl
  · intro x e; cases e; exact ⟨0, rfl, Rat.le_refl⟩
  · intro x e; cases e

/-- C106, violated: exploration per type of action always fails, with a Python error about arguments. -/
theorem exploration_types_violation (w : World) (actions : Items) (hw : WellFormed actions) (entries : List (Path × Val))
    (h : ∀ e ∈ entries, (∃ x ∈ actions, x.1 = e.1) ∨ ∃ t, (t = "bool" ∨ t = "int" ∨ t = "float") ∧ e.1 = [t])
    (ht : ∃ e ∈ entries, ∃ t, (t = "bool" ∨ t = "int" ∨ t = "float") ∧ e.1 = [t]) :
    exploration w actions (.dict entries) = .error .type := by
  unfold exploration
  dsimp only
  rw [anyMissing_types actions hw entries h ht]
  show (do let p ← dictParam w (some 0) none entries; .ok (Explore.global p)) = _
  have hd : dictParam w (some 0) none entries = .error .type := by
    unfold dictParam
    rw [lookup_none]
    · dsimp only
      split
      · obtain ⟨e, he, t, h1, h2⟩ := ht
        cases List.mem_singleton.mp he
        cases h2
        rcases h1 with e | e | e <;> exact absurd e (by decide)
      · rfl
    · intro e he hn
      rcases h e he with ⟨x, hx, e1⟩ | ⟨t, h1, h2⟩
      · exact hw.free x hx "type" (by rw [e1, hn]; exact List.mem_cons_self ..) (by decide)
      · rw [hn] at h2
        cases h2
        rcases h1 with e | e | e <;> exact absurd e (by decide)
  rw [hd]
  rfl

example : exploration constants two (.dict [(["int"], .float (1 / 2))]) = .error .type :=
  exploration_types_violation constants two two_wellFormed _
    (by intro e he; cases List.mem_singleton.mp he; exact .inr ⟨"int", .inr (.inl rfl), rfl⟩)
    ⟨_, List.mem_singleton.mpr rfl, "int", .inr (.inl rfl), rfl⟩

/-- C106, violated: a "probability" of five for integer actions is accepted if given for all actions, and rejected if given by
name. -/
theorem probability_violation (w : World) (name : String) :
    exploration w [([name], ⟨"int", false, false⟩)] (.one (.float 5)) = .ok (.global ⟨.float 5, ⟨some 5, some 5⟩⟩) ∧
    ∀ p, ¬ IsFloat w (some 0) (explorationLimit ⟨"int", false, false⟩) (.float 5) p := by
  constructor
  · rw [exploration_global]
    refine ⟨_, rfl, rfl, rfl, ?_, ?_, ?_⟩
    · intro l h e1 e2; cases e1; cases e2; exact Rat.le_refl
    · intro x e; cases e; exact ⟨5, rfl, by decide +kernel⟩
    · intro x e; cases e
  · rintro p ⟨_, hb, hw⟩
    cases hb' : p.bounds with
    | mk l h =>
      rw [hb'] at hb hw
      simp only [floatBounds, Option.some.injEq, Bounds.mk.injEq] at hb
      obtain ⟨y, hy, hle⟩ := hw.2.2 1 rfl
      rw [← hb.2] at hy
      cases hy
      exact absurd hle (by decide +kernel)

end Verif.Props.Choice
