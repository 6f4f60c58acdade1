import Verif.Gym.Lemmas

/-! # The names of the components of a space -/

namespace Verif.Gym

theorem goodName_iff {n : Name} : goodName n = true ↔ '_' ∉ n ∧ n ≠ "type".toList := by
  simp [goodName]

theorem type_clean : '_' ∉ "type".toList := by decide

/-- The name `type` does not occur if no first part of a name is `type`. -/
theorem no_type {items : List (Name × Leaf)} (h : ∀ x ∈ items, beforeUnderscore x.1 ≠ "type".toList) :
    "type".toList ∉ items.map (·.1) := by
  intro hm
  obtain ⟨x, hx, e⟩ := List.mem_map.mp hm
  exact h x hx (by rw [e]; exact before_clean type_clean)

theorem tpl_ne_type (n : Nat) : tpl ++ digits n ≠ "type".toList := by
  intro h
  have := congrArg List.head? h
  revert this
  simp [tpl]

theorem mdc_ne_type (n : Nat) : mdc ++ digits n ≠ "type".toList := by
  intro h
  have := congrArg List.head? h
  revert this
  simp [mdc]

theorem goodNamesTuple_mem : ∀ {ss : List Space}, goodNamesTuple ss = true → ∀ s ∈ ss, s.goodNames = true
  | [], _, s, hs => by simp at hs
  | t :: ss, h, s, hs => by
    simp only [goodNamesTuple, Bool.and_eq_true] at h
    rcases List.mem_cons.mp hs with rfl | hs
    · exact h.1
    · exact goodNamesTuple_mem h.2 s hs

theorem goodNamesDict_mem : ∀ {ss : List (Name × Space)}, goodNamesDict ss = true → ∀ x ∈ ss, goodName x.1 = true ∧ x.2.goodNames = true
  | [], _, s, hs => by simp at hs
  | (n, t) :: ss, h, s, hs => by
    simp only [goodNamesDict, Bool.and_eq_true] at h
    rcases List.mem_cons.mp hs with rfl | hs
    · exact h.1
    · exact goodNamesDict_mem h.2 s hs

theorem wfTuple_mem : ∀ {ss : List Space}, wfTuple ss = true → ∀ s ∈ ss, s.wf = true
  | [], _, s, hs => by simp at hs
  | t :: ss, h, s, hs => by
    simp only [wfTuple, Bool.and_eq_true] at h
    rcases List.mem_cons.mp hs with rfl | hs
    · exact h.1
    · exact wfTuple_mem h.2 s hs

theorem wfDict_mem : ∀ {ss : List (Name × Space)}, wfDict ss = true → ∀ x ∈ ss, x.2.wf = true
  | [], _, s, hs => by simp at hs
  | (n, t) :: ss, h, s, hs => by
    simp only [wfDict, Bool.and_eq_true] at h
    rcases List.mem_cons.mp hs with rfl | hs
    · exact h.1
    · exact wfDict_mem h.2 s hs

/-- The test of the code for equal numbers of values agrees with the one of the specification. -/
theorem uniform_cons (x : Nat) (xs : List Nat) : uniform (x :: xs) = (x :: xs).all (· == x) := by
  rw [Bool.eq_iff_iff]
  simp only [uniform, List.all_eq_true, beq_iff_eq]
  constructor
  · intro h n hn
    exact h n hn x (List.mem_cons_self ..)
  · intro h n hn m hm
    rw [h n hn, h m hm]

theorem except_map_ok {α β : Type} {f : α → β} {e : Except Err α} {y : β} (h : e.map f = .ok y) : ∃ x, e = .ok x ∧ y = f x := by
  cases e with
  | error e => simp [Except.map] at h
  | ok x =>
    simp only [Except.map, Except.ok.injEq] at h
    exact ⟨x, rfl, h.symm⟩

theorem specs_mdc {inf : Bool} {mn mx : Option Rat} {shape nvec : List Nat} (hn : nvec ≠ []) (hu : uniform nvec = false) :
    specs inf mn mx (.multiDiscrete shape nvec) = .ok (.dict (mdcForm (shapeName shape) 0 nvec)) := by
  cases nvec with
  | nil => exact absurd rfl hn
  | cons x xs =>
    rw [uniform_cons] at hu
    rw [specs, if_neg (by rw [hu]; simp), mdcSpecs_eq]
    · rfl
    · simp

theorem specs_mdc_uniform {inf : Bool} {mn mx : Option Rat} {shape : List Nat} {x : Nat} {xs : List Nat} (hu : uniform (x :: xs) = true) :
    specs inf mn mx (.multiDiscrete shape (x :: xs)) = .ok (.leaf { kind := .int, shape := shape, numValues := some x }) := by
  rw [uniform_cons] at hu
  rw [specs, if_pos hu]

mutual
/-- The names of a specification are different from each other and from `type`. -/
theorem specs_okNames (inf : Bool) : ∀ (s : Space) (mn mx : Option Rat) (sp : Spec), s.wf = true → s.goodNames = true →
    specs inf mn mx s = .ok sp → sp.okNames
  | .discrete n, mn, mx, sp, _, _, h => by
    simp only [specs, Except.ok.injEq] at h; subst h; simp [Spec.okNames, Spec.names]
  | .multiBinary n, mn, mx, sp, _, _, h => by
    simp only [specs, Except.ok.injEq] at h; subst h; simp [Spec.okNames, Spec.names]
  | .other, mn, mx, sp, _, _, h => by simp [specs] at h
  | .box shape low high, mn, mx, sp, _, _, h => by
    simp only [specs] at h
    split at h
    · simp at h
    · simp only [Except.ok.injEq] at h; subst h; simp [Spec.okNames, Spec.names]
  | .multiDiscrete shape nvec, mn, mx, sp, hw, _, h => by
    simp only [Space.wf, Bool.and_eq_true] at hw
    have hne : nvec ≠ [] := by simpa using hw.1.1.2
    cases hu : uniform nvec with
    | false =>
      rw [specs_mdc hne hu] at h
      simp only [Except.ok.injEq] at h
      subst h
      refine ⟨mdcForm_nodup nvec 0, no_type ?_⟩
      intro x hx
      obtain ⟨i, -, -, e⟩ := mdcForm_names nvec 0 x hx
      rw [e, before_append _ (mdc_clean i)]
      exact mdc_ne_type i
    | true =>
      cases nvec with
      | nil => exact absurd rfl hne
      | cons x xs =>
        rw [specs_mdc_uniform hu] at h
        simp only [Except.ok.injEq] at h; subst h; simp [Spec.okNames, Spec.names]
  | .tuple ss, mn, mx, sp, hw, hg, h => by
    simp only [Space.wf] at hw
    simp only [Space.goodNames] at hg
    have ih := specs_okNames_tuple inf ss hw hg
    rw [specs, tupleSpecs_eq inf ss 0 [] ih (by simp)] at h
    cases hf : tupleForm inf 0 ss with
    | error e => rw [hf] at h; simp [Except.map] at h
    | ok items =>
      rw [hf] at h
      simp only [Except.map, List.nil_append, Except.ok.injEq] at h
      subst h
      refine ⟨tupleForm_nodup inf ss 0 items ih hf, no_type ?_⟩
      intro x hx
      obtain ⟨i, -, e⟩ := tupleForm_heads inf ss 0 items hf x hx
      rw [e]
      exact tpl_ne_type i
  | .dict ss, mn, mx, sp, hw, hg, h => by
    simp only [Space.wf, Bool.and_eq_true, decide_eq_true_eq] at hw
    simp only [Space.goodNames] at hg
    have ih := specs_okNames_dict inf ss hw.1 hg
    have hc : ∀ x ∈ ss, '_' ∉ x.1 := fun x hx => (goodName_iff.mp (goodNamesDict_mem hg x hx).1).1
    rw [specs, dictSpecs_eq inf ss [] hc hw.2 ih (by simp)] at h
    cases hf : dictForm inf ss with
    | error e => rw [hf] at h; simp [Except.map] at h
    | ok items =>
      rw [hf] at h
      simp only [Except.map, List.nil_append, Except.ok.injEq] at h
      subst h
      refine ⟨dictForm_nodup inf ss items hc hw.2 ih hf, no_type ?_⟩
      intro x hx
      obtain ⟨y, hy, e⟩ := List.mem_map.mp (dictForm_heads inf ss items hc hf x hx)
      rw [← e]
      exact (goodName_iff.mp (goodNamesDict_mem hg y hy).1).2
theorem specs_okNames_tuple (inf : Bool) : ∀ (ss : List Space), wfTuple ss = true → goodNamesTuple ss = true →
    ∀ s ∈ ss, ∀ sp, specs inf none none s = .ok sp → sp.okNames
  | [], _, _, s, hs, _, _ => by simp at hs
  | t :: ss, hw, hg, s, hs, sp, h => by
    simp only [wfTuple, Bool.and_eq_true] at hw
    simp only [goodNamesTuple, Bool.and_eq_true] at hg
    rcases List.mem_cons.mp hs with e | hs
    · rw [e] at h
      exact specs_okNames inf t none none sp hw.1 hg.1 h
    · exact specs_okNames_tuple inf ss hw.2 hg.2 s hs sp h
theorem specs_okNames_dict (inf : Bool) : ∀ (ss : List (Name × Space)), wfDict ss = true → goodNamesDict ss = true →
    ∀ x ∈ ss, ∀ sp, specs inf none none x.2 = .ok sp → sp.okNames
  | [], _, _, s, hs, _, _ => by simp at hs
  | (n, t) :: ss, hw, hg, x, hx, sp, h => by
    simp only [wfDict, Bool.and_eq_true] at hw
    simp only [goodNamesDict, Bool.and_eq_true] at hg
    rcases List.mem_cons.mp hx with e | hx
    · rw [e] at h
      exact specs_okNames inf t none none sp hw.1 hg.1.2 h
    · exact specs_okNames_dict inf ss hw.2 hg.2 x hx sp h
end

/-! ## The closed form of the specification of tuples and dictionaries -/

theorem specs_tuple {inf : Bool} {mn mx : Option Rat} {ss : List Space} (hw : wfTuple ss = true) (hg : goodNamesTuple ss = true) :
    specs inf mn mx (.tuple ss) = (tupleForm inf 0 ss).map .dict := by
  rw [specs, tupleSpecs_eq inf ss 0 [] (specs_okNames_tuple inf ss hw hg) (by simp)]
  cases tupleForm inf 0 ss with
  | error e => rfl
  | ok items => rfl

theorem specs_dict {inf : Bool} {mn mx : Option Rat} {ss : List (Name × Space)} (hw : wfDict ss = true) (hn : (ss.map (·.1)).Nodup)
    (hg : goodNamesDict ss = true) : specs inf mn mx (.dict ss) = (dictForm inf ss).map .dict := by
  rw [specs, dictSpecs_eq inf ss [] (fun x hx => (goodName_iff.mp (goodNamesDict_mem hg x hx).1).1) hn
    (specs_okNames_dict inf ss hw hg) (by simp)]
  cases dictForm inf ss with
  | error e => rfl
  | ok items => rfl

/-! ## Components -/

theorem pathName_cons (s : Step) (p : List Step) (h : p ≠ []) : pathName (s :: p) = s.name ++ '_' :: pathName p := by
  cases p with
  | nil => exact absurd rfl h
  | cons t q => simp [pathName, List.intercalate, List.intersperse]

theorem entries_append {inf : Bool} : ∀ {ps : List (List Step × Space)} {xs : List (Name × Leaf)} {qs : List (List Step × Space)}
    {ys : List (Name × Leaf)}, Entries inf ps xs → Entries inf qs ys → Entries inf (ps ++ qs) (xs ++ ys)
  | [], [], _, _, _, h => h
  | _ :: _, _ :: _, _, _, h, h' => ⟨h.1, entries_append h.2 h'⟩
  | [], _ :: _, _, _, h, _ => absurd h (by simp [Entries])
  | _ :: _, [], _, _, h, _ => absurd h (by simp [Entries])

theorem entries_cons {inf : Bool} (t : Step) : ∀ {ps : List (List Step × Space)} {xs : List (Name × Leaf)}, Entries inf ps xs →
    (∀ p ∈ ps, p.1 ≠ []) →
    Entries inf (ps.map fun p => (t :: p.1, p.2)) (xs.map fun x => (t.name ++ '_' :: x.1, x.2))
  | [], [], _, _ => trivial
  | p :: ps, x :: xs, h, hp => by
    refine ⟨⟨?_, h.1.2⟩, entries_cons t h.2 (fun q hq => hp q (List.mem_cons_of_mem _ hq))⟩
    rw [pathName_cons t p.1 (hp p (List.mem_cons_self ..)), ← h.1.1]
  | [], _ :: _, h, _ => absurd h (by simp [Entries])
  | _ :: _, [], h, _ => absurd h (by simp [Entries])

theorem entries_under {inf : Bool} {s : Space} {sp : Spec} (t : Step) (h : PartsOf inf s sp) :
    Entries inf (s.parts.map fun p => (t :: p.1, p.2)) (underSpec t.name sp) := by
  cases sp with
  | leaf l =>
    rw [h.1]
    exact ⟨⟨by simp [pathName, List.intercalate, List.intersperse], h.2⟩, trivial⟩
  | dict items => exact entries_cons t h.1 h.2

theorem entries_numbers {inf : Bool} (shape : List Nat) : ∀ (xs : List Nat) (n : Nat),
    Entries inf (numbers shape n xs) (mdcForm (shapeName shape) n xs)
  | [], n => trivial
  | x :: xs, n => ⟨⟨by simp [pathName, List.intercalate, List.intersperse, Step.name], rfl⟩, entries_numbers shape xs (n + 1)⟩

theorem numbers_paths (shape : List Nat) : ∀ (xs : List Nat) (n : Nat), ∀ p ∈ numbers shape n xs, p.1 ≠ []
  | [], n, p, hp => by simp [numbers] at hp
  | x :: xs, n, p, hp => by
    rw [numbers, List.mem_cons] at hp
    rcases hp with rfl | hp
    · simp
    · exact numbers_paths shape xs (n + 1) p hp

theorem partsTuple_paths : ∀ (ss : List Space) (n : Nat), ∀ p ∈ partsTuple n ss, p.1 ≠ []
  | [], n, p, hp => by simp [partsTuple] at hp
  | s :: ss, n, p, hp => by
    rw [partsTuple, List.mem_append] at hp
    rcases hp with hp | hp
    · obtain ⟨q, -, rfl⟩ := List.mem_map.mp hp
      simp
    · exact partsTuple_paths ss (n + 1) p hp

theorem partsDict_paths : ∀ (ss : List (Name × Space)), ∀ p ∈ partsDict ss, p.1 ≠ []
  | [], p, hp => by simp [partsDict] at hp
  | (_, s) :: ss, p, hp => by
    rw [partsDict, List.mem_append] at hp
    rcases hp with hp | hp
    · obtain ⟨q, -, rfl⟩ := List.mem_map.mp hp
      simp
    · exact partsDict_paths ss p hp

mutual
theorem specs_parts (inf : Bool) : ∀ (s : Space) (sp : Spec), s.wf = true → s.goodNames = true →
    specs inf none none s = .ok sp → PartsOf inf s sp
  | .discrete n, sp, _, _, h => by
    simp only [specs, Except.ok.injEq] at h; subst h; exact ⟨rfl, rfl⟩
  | .multiBinary n, sp, _, _, h => by
    simp only [specs, Except.ok.injEq] at h; subst h; exact ⟨rfl, rfl⟩
  | .other, sp, _, _, h => by simp [specs] at h
  | .box shape low high, sp, _, _, h => by
    have h' := h
    simp only [specs] at h
    split at h
    · simp at h
    · simp only [Except.ok.injEq] at h; subst h; exact ⟨rfl, h'⟩
  | .multiDiscrete shape nvec, sp, hw, _, h => by
    simp only [Space.wf, Bool.and_eq_true] at hw
    have hne : nvec ≠ [] := by simpa using hw.1.1.2
    cases hu : uniform nvec with
    | false =>
      rw [specs_mdc hne hu] at h
      simp only [Except.ok.injEq] at h
      subst h
      have e : (Space.multiDiscrete shape nvec).parts = numbers shape 0 nvec := by simp [Space.parts, hu]
      exact ⟨e ▸ entries_numbers shape nvec 0, e ▸ numbers_paths shape nvec 0⟩
    | true =>
      cases nvec with
      | nil => exact absurd rfl hne
      | cons x xs =>
        have h' := h
        rw [specs_mdc_uniform hu] at h
        simp only [Except.ok.injEq] at h
        subst h
        exact ⟨by simp [Space.parts, hu], h'⟩
  | .tuple ss, sp, hw, hg, h => by
    simp only [Space.wf] at hw
    simp only [Space.goodNames] at hg
    rw [specs_tuple hw hg] at h
    obtain ⟨items, hi, rfl⟩ := except_map_ok h
    refine ⟨?_, ?_⟩
    · rw [Space.parts]
      exact specs_parts_tuple inf ss 0 items hw hg hi
    · rw [Space.parts]
      exact partsTuple_paths ss 0
  | .dict ss, sp, hw, hg, h => by
    simp only [Space.wf, Bool.and_eq_true, decide_eq_true_eq] at hw
    simp only [Space.goodNames] at hg
    rw [specs_dict hw.1 hw.2 hg] at h
    obtain ⟨items, hi, rfl⟩ := except_map_ok h
    refine ⟨?_, ?_⟩
    · rw [Space.parts]
      exact specs_parts_dict inf ss items hw.1 hg hi
    · rw [Space.parts]
      exact partsDict_paths ss
theorem specs_parts_tuple (inf : Bool) : ∀ (ss : List Space) (n : Nat) (items : List (Name × Leaf)), wfTuple ss = true →
    goodNamesTuple ss = true → tupleForm inf n ss = .ok items → Entries inf (partsTuple n ss) items
  | [], n, items, _, _, h => by
    simp only [tupleForm, Except.ok.injEq] at h; subst h; exact trivial
  | s :: ss, n, items, hw, hg, h => by
    simp only [wfTuple, Bool.and_eq_true] at hw
    simp only [goodNamesTuple, Bool.and_eq_true] at hg
    rw [tupleForm] at h
    cases hsp : specs inf none none s with
    | error e => rw [hsp] at h; simp at h
    | ok sp =>
      rw [hsp] at h
      dsimp only at h
      cases hr : tupleForm inf (n + 1) ss with
      | error e => rw [hr] at h; simp at h
      | ok rest =>
        rw [hr] at h
        simp only [Except.ok.injEq] at h
        subst h
        exact entries_append (entries_under (.item n) (specs_parts inf s sp hw.1 hg.1 hsp))
          (specs_parts_tuple inf ss (n + 1) rest hw.2 hg.2 hr)
theorem specs_parts_dict (inf : Bool) : ∀ (ss : List (Name × Space)) (items : List (Name × Leaf)), wfDict ss = true →
    goodNamesDict ss = true → dictForm inf ss = .ok items → Entries inf (partsDict ss) items
  | [], items, _, _, h => by
    simp only [dictForm, Except.ok.injEq] at h; subst h; exact trivial
  | (name, s) :: ss, items, hw, hg, h => by
    simp only [wfDict, Bool.and_eq_true] at hw
    simp only [goodNamesDict, Bool.and_eq_true] at hg
    rw [dictForm] at h
    cases hsp : specs inf none none s with
    | error e => rw [hsp] at h; simp at h
    | ok sp =>
      rw [hsp] at h
      dsimp only at h
      cases hr : dictForm inf ss with
      | error e => rw [hr] at h; simp at h
      | ok rest =>
        rw [hr] at h
        simp only [Except.ok.injEq] at h
        subst h
        exact entries_append (entries_under (.key name) (specs_parts inf s sp hw.1 hg.1.2 hsp))
          (specs_parts_dict inf ss rest hw.2 hg.2 hr)
end

end Verif.Gym
