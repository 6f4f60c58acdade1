import Verif.Gym.Leaf

/-! # Lemmas about `flatten_state` -/

namespace Verif.Gym

theorem relax_low {y x : Num} (h : y.le x = true) (hx : x.isFin = true) :
    (if y.le lowLimit then Num.negInf else y).le x = true := by
  split
  · exact negInf_le hx
  · exact h

theorem relax_high {y x : Num} (h : x.le y = true) (hx : x.isFin = true) :
    x.le (if highLimit.le y then Num.posInf else y) = true := by
  split
  · exact le_posInf hx
  · exact h

theorem zip_relax_low : ∀ (low xs : List Num), (List.zipWith Num.le low xs).all id = true → xs.all Num.isFin = true →
    (List.zipWith Num.le (low.map fun y => if y.le lowLimit then .negInf else y) xs).all id = true
  | [], _, _, _ => rfl
  | _ :: _, [], _, _ => rfl
  | y :: low, x :: xs, h, hf => by
    simp only [List.zipWith_cons_cons, List.all_cons, id, Bool.and_eq_true] at h hf
    simp only [List.map_cons, List.zipWith_cons_cons, List.all_cons, id, Bool.and_eq_true]
    exact ⟨relax_low h.1 hf.1, zip_relax_low low xs h.2 hf.2⟩

theorem zip_relax_high : ∀ (high xs : List Num), (List.zipWith Num.le xs high).all id = true → xs.all Num.isFin = true →
    (List.zipWith Num.le xs (high.map fun y => if highLimit.le y then .posInf else y)).all id = true
  | [], [], _, _ => rfl
  | [], _ :: _, _, _ => rfl
  | _ :: _, [], _, _ => rfl
  | y :: high, x :: xs, h, hf => by
    simp only [List.zipWith_cons_cons, List.all_cons, id, Bool.and_eq_true] at h hf
    simp only [List.map_cons, List.zipWith_cons_cons, List.all_cons, id, Bool.and_eq_true]
    exact ⟨relax_high h.1 hf.1, zip_relax_high high xs h.2 hf.2⟩

theorem lowSpec_inf {low : List Num} (hne : low ≠ []) : ∃ L, lowSpec true none low = .ok L ∧
    ∀ xs : List Num, xs.all Num.isFin = true → low.length = xs.length →
      (List.zipWith Num.le low xs).all id = true → L.below xs = true := by
  cases low with
  | nil => exact absurd rfl hne
  | cons x rest =>
    rw [lowSpec]
    by_cases hu : (x :: rest).all (· == x) = true
    · rw [if_pos hu]
      by_cases hl : lowLimit.lt x = true
      · refine ⟨.scalar x, by rw [if_pos hl], fun xs _ hlen h => ?_⟩
        rw [List.all_eq_true] at hu
        rw [zipWith_all_left hlen (fun y hy => by simpa using hu y hy)] at h
        exact h
      · exact ⟨.none, by rw [if_neg hl], fun xs _ _ _ => rfl⟩
    · rw [if_neg hu, if_pos rfl]
      refine ⟨_, rfl, fun xs hf hlen h => ?_⟩
      rw [Limit.below, zip_relax_low _ _ h hf]
      simp only [List.length_map, Bool.and_true, beq_iff_eq]
      exact hlen

theorem highSpec_inf {high : List Num} (hne : high ≠ []) : ∃ L, highSpec true none high = .ok L ∧
    ∀ xs : List Num, xs.all Num.isFin = true → high.length = xs.length →
      (List.zipWith Num.le xs high).all id = true → L.above xs = true := by
  cases high with
  | nil => exact absurd rfl hne
  | cons x rest =>
    rw [highSpec]
    by_cases hu : (x :: rest).all (· == x) = true
    · rw [if_pos hu]
      by_cases hl : x.lt highLimit = true
      · refine ⟨.scalar x, by rw [if_pos hl], fun xs _ hlen h => ?_⟩
        rw [List.all_eq_true] at hu
        rw [zipWith_all_right hlen.symm (fun y hy => by simpa using hu y hy)] at h
        exact h
      · exact ⟨.none, by rw [if_neg hl], fun xs _ _ _ => rfl⟩
    · rw [if_neg hu, if_pos rfl]
      refine ⟨_, rfl, fun xs hf hlen h => ?_⟩
      rw [Limit.above, zip_relax_high _ _ h hf]
      simp only [List.length_map, Bool.and_true, beq_iff_eq]
      exact hlen

theorem simple_array {s : Space} (hs : s.simple = true) {v : Value} (hm : s.mem v = true) : ∃ a, v = .array a := by
  cases v with
  | array a => exact ⟨a, rfl⟩
  | tuple vs => cases s <;> simp_all [Space.simple, Space.mem]
  | dict vs => cases s <;> simp_all [Space.simple, Space.mem]

/-- The specification of an observation space of one component allows the elements of the space. -/
theorem simple_ok {s : Space} (hw : s.wf = true) (hs : s.simple = true) :
    ∃ l, specs true none none s = .ok (.leaf l) ∧ ∀ a, s.mem (.array a) = true → l.fits a = true ∧ named s (.array a) = .one a := by
  by_cases hp : s.plain = true ∧ ∀ shape low high, s ≠ .box shape low high
  · obtain ⟨l, h1, h2, h3⟩ := plain_ok hw hp.1
    refine ⟨l, ?_, fun a ha => ⟨by rw [h2]; exact ha, h3 a⟩⟩
    cases s with
    | discrete n => exact h1
    | multiBinary n => exact h1
    | multiDiscrete shape nvec => cases nvec <;> exact h1
    | box shape low high => exact absurd rfl (hp.2 shape low high)
    | tuple ss => simp [Space.simple] at hs
    | dict ss => simp [Space.simple] at hs
    | other => simp [Space.simple] at hs
  · cases s with
    | box shape low high =>
      simp only [Space.wf, goodBox, Bool.and_eq_true, beq_iff_eq, decide_eq_true_eq, List.all_eq_true] at hw
      obtain ⟨⟨⟨⟨⟨h1, h2⟩, h3⟩, h4⟩, h5⟩, h6⟩ := hw
      have h3' : high ≠ [] := by
        intro e
        apply h3
        rw [e] at h2
        exact List.length_eq_zero_iff.mp (h1.trans h2.symm)
      obtain ⟨L, hL, hL'⟩ := lowSpec_inf h3
      obtain ⟨H, hH, hH'⟩ := highSpec_inf h3'
      refine ⟨{ kind := .float, shape := shape, low := L, high := H }, ?_, fun a ha => ⟨?_, rfl⟩⟩
      · simp only [specs, boxSpec, hL, hH]
      · simp only [Space.mem, Bool.and_eq_true, beq_iff_eq] at ha
        obtain ⟨⟨⟨⟨g1, g2⟩, g3⟩, g4⟩, g5⟩ := ha
        simp only [Leaf.fits]
        rw [all_congr' (fun x => okNum_float), g3, hL' _ g3 g2.symm g4, hH' _ g3 (by omega) g5, g1]
        simp only [beq_self_eq_true, Bool.true_and, Bool.and_true, beq_iff_eq]
        omega
    | _ => exact absurd ⟨by simpa [Space.plain] using hs, by simp⟩ hp

theorem fits_fin' {l : Leaf} {a : Arr} (h : l.fits a = true) : a.elems.all Num.isFin = true := by
  simp only [Leaf.fits, Bool.and_eq_true] at h
  rw [List.all_eq_true]
  intro x hx
  exact okNum_fin (List.all_eq_true.mp h.1.1.2 x hx)

theorem flattenArr_leaf (l : Leaf) {a : Arr} (h : a.elems.all Num.isFin = true) : flattenArr (.leaf l) a = .ok (.one a) := by
  rw [flattenArr, h]
  rfl

theorem component_find {spec : Spec} {name : Name} {l : Leaf} (h : spec.find name = some l) : spec.component name = .ok l := by
  rw [Spec.component, h]

theorem fitsItems_snoc : ∀ {ls : List (Name × Leaf)} {as : List (Name × Arr)} {n : Name} {l : Leaf} {a : Arr},
    fitsItems ls as = true → l.fits a = true → fitsItems (ls ++ [(n, l)]) (as ++ [(n, a)]) = true
  | [], [], n, l, a, _, h => by simp [fitsItems, h]
  | (m, k) :: ls, (m', b) :: as, n, l, a, h, h' => by
    simp only [fitsItems, Bool.and_eq_true] at h
    simp only [List.cons_append, fitsItems, Bool.and_eq_true]
    exact ⟨h.1, fitsItems_snoc h.2 h'⟩
  | [], _ :: _, _, _, _, h, _ => by simp [fitsItems] at h
  | _ :: _, [], _, _, _, h, _ => by simp [fitsItems] at h

/-- The entries of a tuple of spaces of one component. -/
theorem tuple_form : ∀ (ss : List Space) (n : Nat), wfTuple ss = true → ss.all Space.simple = true →
    ∃ items, tupleForm true n ss = .ok items ∧
      (∀ vs, memTuple ss vs = true → fitsItems items (namedTuple n ss vs) = true) ∧
      ∀ (pre : List (Name × Leaf)), (∀ x ∈ pre, ∀ i, n ≤ i → x.1 ≠ tpl ++ digits i) →
        ∀ vs, memTuple ss vs = true → ∀ acc : List (Name × Arr), (∀ x ∈ acc, ∀ i, n ≤ i → x.1 ≠ tpl ++ digits i) →
          flattenTuple (.dict (pre ++ items)) n vs acc = .ok (.many (acc ++ namedTuple n ss vs))
  | [], n, _, _ => by
    refine ⟨[], rfl, ?_, ?_⟩
    · intro vs h
      cases vs with
      | nil => rfl
      | cons v vs => simp [memTuple] at h
    · intro pre _ vs h acc _
      cases vs with
      | nil => simp [flattenTuple, namedTuple]
      | cons v vs => simp [memTuple] at h
  | s :: ss, n, hw, hs => by
    simp only [wfTuple, Bool.and_eq_true] at hw
    simp only [List.all_cons, Bool.and_eq_true] at hs
    obtain ⟨l, hl, hfit⟩ := simple_ok hw.1 hs.1
    obtain ⟨items, hi, h1, h2⟩ := tuple_form ss (n + 1) hw.2 hs.2
    refine ⟨(tpl ++ digits n, l) :: items, by rw [tupleForm, hl]; dsimp only; rw [hi]; rfl, ?_, ?_⟩
    · intro vs h
      cases vs with
      | nil => simp [memTuple] at h
      | cons v vs =>
        simp only [memTuple, Bool.and_eq_true] at h
        obtain ⟨a, rfl⟩ := simple_array hs.1 h.1
        obtain ⟨f1, f2⟩ := hfit a h.1
        rw [namedTuple, f2, under]
        simp only [List.cons_append, List.nil_append, fitsItems, f1, h1 vs h.2, beq_self_eq_true, Bool.and_self]
    · intro pre hpre vs h acc hacc
      cases vs with
      | nil => simp [memTuple] at h
      | cons v vs =>
        simp only [memTuple, Bool.and_eq_true] at h
        obtain ⟨a, rfl⟩ := simple_array hs.1 h.1
        obtain ⟨f1, f2⟩ := hfit a h.1
        have hfind : (Spec.dict (pre ++ (tpl ++ digits n, l) :: items)).find (tpl ++ digits n) = some l := by
          rw [Spec.find, look_append (fun x hx => hpre x hx n (Nat.le_refl n)), look, if_pos rfl]
        rw [flattenTuple, component_find hfind]
        dsimp only
        rw [flattenState, flattenArr_leaf l (fits_fin' f1)]
        dsimp only
        rw [putFlat, put_fresh (fun x hx => hacc x hx n (Nat.le_refl n))]
        have key := h2 (pre ++ [(tpl ++ digits n, l)]) ?_ vs h.2 (acc ++ [(tpl ++ digits n, a)]) ?_
        · rw [List.append_assoc, List.singleton_append] at key
          rw [key, namedTuple, f2, under]
          simp
        · intro x hx i hi'
          rcases List.mem_append.mp hx with hx | hx
          · exact hpre x hx i (by omega)
          · rw [List.mem_singleton] at hx
            subst hx
            intro e
            have := tpl_digits_inj e
            omega
        · intro x hx i hi'
          rcases List.mem_append.mp hx with hx | hx
          · exact hacc x hx i (by omega)
          · rw [List.mem_singleton] at hx
            subst hx
            intro e
            have := tpl_digits_inj e
            omega

/-- The entries of a dictionary of spaces of one component; the names may contain underscores. -/
theorem dict_form : ∀ (ss : List (Name × Space)), wfDict ss = true → (ss.map (·.1)).Nodup → (ss.all fun x => x.2.simple) = true →
    ∃ items, (∀ acc : List (Name × Leaf), (∀ x ∈ acc, ∀ y ∈ ss, x.1 ≠ y.1) → dictSpecs true ss acc = .ok (acc ++ items)) ∧
      (∀ vs, memDict ss vs = true → fitsItems items (namedDict ss vs) = true) ∧
      ∀ (pre : List (Name × Leaf)), (∀ x ∈ pre, ∀ y ∈ ss, x.1 ≠ y.1) →
        ∀ moved : List Name, (∀ y ∈ ss, y.1 ∉ moved) →
        ∀ vs, memDict ss vs = true → ∀ acc : List (Name × Arr), (∀ x ∈ acc, ∀ y ∈ ss, x.1 ≠ y.1) →
          flattenDict (.dict (pre ++ items)) moved vs acc = .ok (.many (acc ++ namedDict ss vs))
  | [], _, _, _ => by
    refine ⟨[], fun acc _ => by simp [dictSpecs], ?_, ?_⟩
    · intro vs h
      cases vs with
      | nil => rfl
      | cons v vs => simp [memDict] at h
    · intro pre _ moved _ vs h acc _
      cases vs with
      | nil => simp [flattenDict, namedDict]
      | cons v vs => simp [memDict] at h
  | (name, s) :: ss, hw, hn, hs => by
    simp only [wfDict, Bool.and_eq_true] at hw
    simp only [List.all_cons, Bool.and_eq_true] at hs
    rw [List.map_cons, List.nodup_cons] at hn
    have hne : ∀ y ∈ ss, name ≠ y.1 := fun y hy e => hn.1 (List.mem_map.mpr ⟨y, hy, e.symm⟩)
    obtain ⟨l, hl, hfit⟩ := simple_ok hw.1 hs.1
    obtain ⟨items, h0, h1, h2⟩ := dict_form ss hw.2 hn.2 hs.2
    refine ⟨(name, l) :: items, ?_, ?_, ?_⟩
    · intro acc hacc
      rw [dictSpecs, hl]
      dsimp only
      rw [putSpec]
      dsimp only
      rw [put_fresh (fun x hx => hacc x hx _ (List.mem_cons_self ..)), h0]
      · simp
      · intro x hx y hy
        rcases List.mem_append.mp hx with hx | hx
        · exact hacc x hx y (List.mem_cons_of_mem _ hy)
        · rw [List.mem_singleton] at hx
          subst hx
          exact hne y hy
    · intro vs h
      cases vs with
      | nil => simp [memDict] at h
      | cons w vs =>
        obtain ⟨m, v⟩ := w
        simp only [memDict, Bool.and_eq_true] at h
        obtain ⟨a, rfl⟩ := simple_array hs.1 h.1.2
        obtain ⟨f1, f2⟩ := hfit a h.1.2
        rw [namedDict, f2, under]
        simp only [List.cons_append, List.nil_append, fitsItems, f1, h1 vs h.2, beq_self_eq_true, Bool.and_self]
    · intro pre hpre moved hm vs h acc hacc
      cases vs with
      | nil => simp [memDict] at h
      | cons w vs =>
        obtain ⟨m, v⟩ := w
        simp only [memDict, Bool.and_eq_true, beq_iff_eq] at h
        obtain ⟨⟨e, h⟩, h'⟩ := h
        subst e
        obtain ⟨a, rfl⟩ := simple_array hs.1 h
        obtain ⟨f1, f2⟩ := hfit a h
        have hfind : (Spec.dict (pre ++ (name, l) :: items)).find name = some l := by
          rw [Spec.find, look_append (fun x hx => hpre x hx _ (List.mem_cons_self ..)), look, if_pos rfl]
        rw [flattenDict, if_neg (hm _ (List.mem_cons_self ..)), component_find hfind]
        dsimp only
        rw [flattenState, flattenArr_leaf l (fits_fin' f1)]
        dsimp only
        rw [putFlat, put_fresh (fun x hx => hacc x hx _ (List.mem_cons_self ..))]
        have key := h2 (pre ++ [(name, l)]) ?_ moved (fun y hy => hm y (List.mem_cons_of_mem _ hy)) vs h' (acc ++ [(name, a)]) ?_
        · rw [List.append_assoc, List.singleton_append] at key
          rw [key, namedDict, f2, under]
          simp
        · intro x hx y hy
          rcases List.mem_append.mp hx with hx | hx
          · exact hpre x hx y (List.mem_cons_of_mem _ hy)
          · rw [List.mem_singleton] at hx
            subst hx
            exact hne y hy
        · intro x hx y hy
          rcases List.mem_append.mp hx with hx | hx
          · exact hacc x hx y (List.mem_cons_of_mem _ hy)
          · rw [List.mem_singleton] at hx
            subst hx
            exact hne y hy

theorem simple_goodNamesTuple : ∀ {ss : List Space}, ss.all Space.simple = true → goodNamesTuple ss = true
  | [], _ => rfl
  | s :: ss, h => by
    simp only [List.all_cons, Bool.and_eq_true] at h
    have : s.goodNames = true := by
      cases s <;> simp_all [Space.simple, Space.goodNames]
    rw [goodNamesTuple, this, simple_goodNamesTuple h.2]
    rfl

theorem memDict_names : ∀ {ss : List (Name × Space)} {vs : List (Name × Value)}, memDict ss vs = true → vs.map (·.1) = ss.map (·.1)
  | [], [], _ => rfl
  | (n, s) :: ss, (m, v) :: vs, h => by
    simp only [memDict, Bool.and_eq_true, beq_iff_eq] at h
    rw [List.map_cons, List.map_cons, memDict_names h.2, h.1.1]
  | [], _ :: _, h => by simp [memDict] at h
  | _ :: _, [], h => by simp [memDict] at h

theorem popMasks_none {state : List (Name × Value)} : ∀ {names : List Name}, (∀ n ∈ names, n ∉ state.map (·.1)) →
    ∀ acc, popMasks state names acc = .ok acc
  | [], _, acc => rfl
  | n :: names, h, acc => by
    rw [popMasks, look_none]
    · exact popMasks_none (fun m hm => h m (List.mem_cons_of_mem _ hm)) acc
    · intro x hx e
      exact h n (List.mem_cons_self ..) (List.mem_map.mpr ⟨x, hx, e⟩)

theorem state_ok {s : Space} (hw : s.wf = true) (hs : s.shallow = true) (actions : Option Spec)
    (hk : ∀ n ∈ maskNames actions, n ∉ s.keys) : ∃ sp, specs true none none s = .ok sp ∧
      ∀ v, s.mem v = true → flattenState sp actions v = .ok (named s v) ∧ sp.fits (named s v) = true := by
  by_cases hsi : s.simple = true
  · obtain ⟨l, h1, h2⟩ := simple_ok hw hsi
    refine ⟨.leaf l, h1, fun v hv => ?_⟩
    obtain ⟨a, rfl⟩ := simple_array hsi hv
    obtain ⟨g1, g2⟩ := h2 a hv
    rw [g2, flattenState, flattenArr_leaf l (fits_fin' g1)]
    exact ⟨rfl, g1⟩
  · cases s with
    | tuple ss =>
      simp only [Space.wf] at hw
      simp only [Space.shallow] at hs
      obtain ⟨items, hi, h1, h2⟩ := tuple_form ss 0 hw hs
      refine ⟨.dict items, ?_, ?_⟩
      · rw [specs_tuple hw (simple_goodNamesTuple hs), hi]
        rfl
      · intro v hv
        cases v with
        | tuple vs =>
          rw [Space.mem] at hv
          have := h2 [] (by simp) vs hv [] (by simp)
          rw [List.nil_append, List.nil_append] at this
          rw [flattenState, this, named, Spec.fits]
          exact ⟨rfl, h1 vs hv⟩
        | array a => simp [Space.mem] at hv
        | dict vs => simp [Space.mem] at hv
    | dict ss =>
      simp only [Space.wf, Bool.and_eq_true, decide_eq_true_eq] at hw
      simp only [Space.shallow] at hs
      obtain ⟨items, hi, h1, h2⟩ := dict_form ss hw.1 hw.2 hs
      have hi' := hi [] (by simp)
      rw [List.nil_append] at hi'
      refine ⟨.dict items, ?_, ?_⟩
      · rw [specs, hi']
      · intro v hv
        cases v with
        | dict vs =>
          rw [Space.mem] at hv
          have hm : ∀ y ∈ ss, y.1 ∉ maskNames actions := fun y hy h => hk y.1 h (List.mem_map.mpr ⟨y, hy, rfl⟩)
          have := h2 [] (by simp) (maskNames actions) hm vs hv [] (by simp)
          rw [List.nil_append, List.nil_append] at this
          rw [flattenState, popMasks_none (fun n hn => by rw [memDict_names hv]; exact hk n hn)]
          dsimp only
          rw [this, named, Spec.fits]
          exact ⟨rfl, h1 vs hv⟩
        | array a => simp [Space.mem] at hv
        | tuple vs => simp [Space.mem] at hv
    | discrete n => simp [Space.simple] at hsi
    | multiBinary n => simp [Space.simple] at hsi
    | box _ _ _ => simp [Space.simple] at hsi
    | multiDiscrete shape nvec => exact absurd hs hsi
    | other => simp [Space.wf] at hw

end Verif.Gym
