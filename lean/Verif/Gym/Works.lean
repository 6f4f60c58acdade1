import Verif.Gym.Action

/-! # `unflatten_action` on the supported spaces -/

namespace Verif.Gym

theorem fitsItems_names : ∀ {ls : List (Name × Leaf)} {as : List (Name × Arr)}, fitsItems ls as = true → as.map (·.1) = ls.map (·.1)
  | [], [], _ => rfl
  | (n, l) :: ls, (m, a) :: as, h => by
    simp only [fitsItems, Bool.and_eq_true, beq_iff_eq] at h
    rw [List.map_cons, List.map_cons, fitsItems_names h.2, h.1.1]
  | [], _ :: _, h => by simp [fitsItems] at h
  | _ :: _, [], h => by simp [fitsItems] at h

theorem fitsItems_append : ∀ {ls ks : List (Name × Leaf)} {as : List (Name × Arr)}, fitsItems (ls ++ ks) as = true →
    ∃ bs cs, as = bs ++ cs ∧ fitsItems ls bs = true ∧ fitsItems ks cs = true
  | [], ks, as, h => ⟨[], as, rfl, rfl, h⟩
  | (n, l) :: ls, ks, [], h => by simp [fitsItems] at h
  | (n, l) :: ls, ks, (m, a) :: as, h => by
    simp only [List.cons_append, fitsItems, Bool.and_eq_true] at h
    obtain ⟨bs, cs, rfl, h1, h2⟩ := fitsItems_append h.2
    exact ⟨(m, a) :: bs, cs, rfl, by simp only [fitsItems, Bool.and_eq_true]; exact ⟨h.1, h1⟩, h2⟩

/-- The entries of a component fit if they are those of a fitting value under the name of the component. -/
theorem fitsItems_under {name : Name} {sp : Spec} {as : List (Name × Arr)} (h : fitsItems (underSpec name sp) as = true) :
    ∃ f, sp.fits f = true ∧ as = under name f := by
  cases sp with
  | leaf l =>
    match as, h with
    | [], h => simp [underSpec, fitsItems] at h
    | (m, a) :: [], h =>
      simp only [underSpec, fitsItems, Bool.and_eq_true, beq_iff_eq, Bool.and_true] at h
      exact ⟨.one a, h.2, by rw [under, h.1]⟩
    | (m, a) :: _ :: _, h => simp [underSpec, fitsItems] at h
  | dict items =>
    have key : ∀ (items : List (Name × Leaf)) (as : List (Name × Arr)),
        fitsItems (items.map fun x => (name ++ '_' :: x.1, x.2)) as = true →
        ∃ bs, fitsItems items bs = true ∧ as = bs.map fun x => (name ++ '_' :: x.1, x.2) := by
      intro items
      induction items with
      | nil =>
        intro as h
        cases as with
        | nil => exact ⟨[], rfl, rfl⟩
        | cons x as => simp [fitsItems] at h
      | cons x items ih =>
        intro as h
        cases as with
        | nil => simp [fitsItems] at h
        | cons y as =>
          simp only [List.map_cons, fitsItems, Bool.and_eq_true, beq_iff_eq] at h
          obtain ⟨bs, h1, h2⟩ := ih as h.2
          refine ⟨(x.1, y.2) :: bs, ?_, ?_⟩
          · simp only [fitsItems, Bool.and_eq_true, beq_iff_eq]
            exact ⟨⟨trivial, h.1.2⟩, h1⟩
          · rw [List.map_cons, ← h2, h.1.1]
    obtain ⟨bs, h1, h2⟩ := key items as h
    exact ⟨.many bs, h1, h2⟩

theorem fits_fin {l : Leaf} {a : Arr} (h : l.fits a = true) : a.elems.all Num.isFin = true := by
  simp only [Leaf.fits, Bool.and_eq_true] at h
  rw [List.all_eq_true]
  intro x hx
  exact okNum_fin (List.all_eq_true.mp h.1.1.2 x hx)

theorem depth_pos : ∀ (as : List (Name × Arr)), 0 < depth as
  | [] => by simp [depth]
  | (n, a) :: as => by have := depth_pos as; simp [depth]; omega

theorem depth_append : ∀ (as bs : List (Name × Arr)), depth (as ++ bs) + 1 = depth as + depth bs
  | [], bs => by simp [depth]; omega
  | (n, a) :: as, bs => by have := depth_append as bs; simp only [List.cons_append, depth]; omega

theorem depth_under {name : Name} : ∀ {items : List (Name × Arr)}, items ≠ [] → depth items < depth (under name (.many items))
  | [], h => absurd rfl h
  | (n, a) :: rest, _ => by
    simp only [under, List.map_cons, depth, List.length_append, List.length_cons]
    cases rest with
    | nil => simp only [List.map_nil, depth]; omega
    | cons x rest =>
      have := depth_under (name := name) (items := x :: rest) (by simp)
      simp only [under] at this
      omega

/-! ## Tuples -/

theorem tuple_entries : ∀ (ss : List Space) (n : Nat) (as : List (Name × Arr)) , wfTuple ss = true → ss.all Space.plain = true →
    (∃ items, tupleForm false n ss = .ok items ∧ (ss ≠ [] → items ≠ [])) ∧
      ∀ items, tupleForm false n ss = .ok items → fitsItems items as = true →
        ∃ xs : List Arr, as = tplItems n xs ∧ xs.length = ss.length ∧ (∀ a ∈ xs, a.elems.all Num.isFin = true) ∧
          memTuple ss (xs.map .array) = true ∧ namedTuple n ss (xs.map .array) = as
  | [], n, as, _, _ => by
    refine ⟨⟨[], rfl, fun h => absurd rfl h⟩, ?_⟩
    intro items hi h
    simp only [tupleForm, Except.ok.injEq] at hi
    subst hi
    cases as with
    | nil => exact ⟨[], rfl, rfl, by simp, rfl, rfl⟩
    | cons x as => simp [fitsItems] at h
  | s :: ss, n, as, hw, hp => by
    simp only [wfTuple, Bool.and_eq_true] at hw
    simp only [List.all_cons, Bool.and_eq_true] at hp
    obtain ⟨l, hl, hfit, hname⟩ := plain_ok hw.1 hp.1
    obtain ⟨⟨items, hi, -⟩, -⟩ := tuple_entries ss (n + 1) [] hw.2 hp.2
    refine ⟨⟨(tpl ++ digits n, l) :: items, by rw [tupleForm, hl]; dsimp only; rw [hi]; rfl, by simp⟩, ?_⟩
    intro items' hi' h
    rw [tupleForm, hl] at hi'
    dsimp only at hi'
    rw [hi] at hi'
    simp only [Except.ok.injEq] at hi'
    subst hi'
    cases as with
    | nil => simp [underSpec, fitsItems] at h
    | cons x as =>
      obtain ⟨m, a⟩ := x
      simp only [underSpec, List.cons_append, List.nil_append, fitsItems, Bool.and_eq_true, beq_iff_eq] at h
      obtain ⟨xs, h1, h2, h3, h4, h5⟩ := (tuple_entries ss (n + 1) as hw.2 hp.2).2 items hi h.2
      refine ⟨a :: xs, by rw [tplItems, ← h1, h.1.1], by simp [h2], ?_, ?_, ?_⟩
      · intro b hb
        rcases List.mem_cons.mp hb with rfl | hb
        · exact fits_fin h.1.2
        · exact h3 b hb
      · rw [List.map_cons, memTuple, h4, ← hfit, h.1.2]; rfl
      · rw [List.map_cons, namedTuple, hname, h5, under, h.1.1]; rfl

theorem allStart_false {pre : Name} {as : List (Name × Arr)} {x : Name × Arr} (hx : x ∈ as) (h : pre.isPrefixOf x.1 = false) :
    allStart pre as = false := by
  rw [allStart, List.all_eq_false]
  exact ⟨x, hx, by rw [h]; simp⟩

theorem unflatten_tuple {xs : List Arr} (hne : xs ≠ []) (hf : ∀ a ∈ xs, a.elems.all Num.isFin = true) (k : Nat) :
    unflattenMany (k + 1) (tplItems 0 xs) = .ok (.tuple (xs.map .array)) := by
  cases xs with
  | nil => exact absurd rfl hne
  | cons a as =>
    have h1 : allStart mdc (tplItems 0 (a :: as)) = false :=
      allStart_false (x := (tpl ++ digits 0, a)) (List.mem_cons_self ..) (by dsimp only; decide)
    have h2 : allStart gbox (tplItems 0 (a :: as)) = false :=
      allStart_false (x := (tpl ++ digits 0, a)) (List.mem_cons_self ..) (by dsimp only; decide)
    have h3 : allStart tpl (tplItems 0 (a :: as)) = true := by
      rw [allStart, List.all_eq_true]
      intro x hx
      obtain ⟨i, e⟩ := tplItems_names _ _ x hx
      rw [e]
      exact prefix_self_append _ _
    have hc := collect_tpl hf ((tplItems 0 (a :: as)).length + 1) 0 (by rw [tplItems_length]; omega)
    rw [if_pos ⟨by omega, by omega⟩] at hc
    rw [unflattenMany.eq_def]
    dsimp only
    rw [h1, h2, h3]
    simp only [Bool.or_true, if_true, Bool.or_false, Bool.false_eq_true, if_false]
    have e : tplItems 0 (a :: as) = (tpl ++ digits 0, a) :: tplItems 1 as := rfl
    rw [e] at hc ⊢
    dsimp only
    rw [show (tpl ++ digits 0).take 6 = tpl by decide, hc]
    rfl

/-! ## Arrays of numbers with different numbers of values -/

theorem mdc_entries {shape : Name} : ∀ (nvec : List Nat) (n : Nat) (as : List (Name × Arr)),
    fitsItems (mdcForm shape n nvec) as = true →
    ∃ xs : List Num, as = numbered shape n xs ∧ xs.length = nvec.length ∧ (List.zipWith natBelow nvec xs).all id = true ∧
      xs.all Num.isFin = true
  | [], n, as, h => by
    cases as with
    | nil => exact ⟨[], rfl, rfl, rfl, rfl⟩
    | cons x as => simp [mdcForm, fitsItems] at h
  | v :: nvec, n, as, h => by
    cases as with
    | nil => simp [mdcForm, fitsItems] at h
    | cons y as =>
      obtain ⟨m, a⟩ := y
      simp only [mdcForm, fitsItems, Bool.and_eq_true, beq_iff_eq] at h
      obtain ⟨xs, h1, h2, h3, h4⟩ := mdc_entries nvec (n + 1) as h.2
      have hf := fits_fin h.1.2
      have hfit := h.1.2
      simp only [Leaf.fits, Bool.and_eq_true, beq_iff_eq, size] at hfit
      obtain ⟨⟨⟨⟨g1, g2⟩, g3⟩, -⟩, -⟩ := hfit
      obtain ⟨sh, el⟩ := a
      obtain ⟨x, rfl⟩ := List.length_eq_one_iff.mp g2
      dsimp only at g1 hf g3
      subst g1
      rw [all_congr' (fun x => okNum_int)] at g3
      simp only [List.all_cons, List.all_nil, Bool.and_true] at g3 hf
      refine ⟨x :: xs, by rw [numbered, ← h1, h.1.1], by simp [h2], ?_, ?_⟩
      · simp only [List.zipWith_cons_cons, List.all_cons, id, h3, g3, Bool.and_self]
      · simp only [List.all_cons, h4, hf, Bool.and_self]

theorem unflatten_mdc {shape : List Nat} {xs : List Num} (hs : shape ≠ []) (hne : xs ≠ []) (hl : xs.length ≤ 10)
    (hz : xs.length = size shape) (hf : xs.all Num.isFin = true) (k : Nat) :
    unflattenMany (k + 1) (numbered (shapeName shape) 0 xs) = .ok (.array ⟨shape, xs⟩) := by
  cases xs with
  | nil => exact absurd rfl hne
  | cons x xs =>
    have h1 : allStart mdc (numbered (shapeName shape) 0 (x :: xs)) = true := by
      rw [allStart, List.all_eq_true]
      intro y hy
      obtain ⟨i, -, -, e⟩ := numbered_names _ _ y hy
      rw [e, List.append_assoc]
      exact prefix_self_append _ _
    have hc := collect_mdc (shape := shapeName shape) hl hf ((numbered (shapeName shape) 0 (x :: xs)).length + 1) 0
      (by rw [numbered_length]; omega) (by omega)
    have e : numbered (shapeName shape) 0 (x :: xs) =
        (mdc ++ digits 0 ++ '_' :: shapeName shape, ⟨[], [x]⟩) :: numbered (shapeName shape) 1 xs := rfl
    rw [unflattenMany.eq_def]
    dsimp only
    rw [h1]
    simp only [Bool.true_or, if_true]
    rw [e] at hc ⊢
    dsimp only
    have ht : (mdc ++ digits 0 ++ '_' :: shapeName shape).take 6 = mdc := by
      rw [List.append_assoc]
      exact List.take_left' (by decide)
    rw [ht, hc]
    dsimp only
    rw [parseShape_mdc hs]
    dsimp only
    have hfl : (((x :: xs).drop 0).map (fun x => (⟨[], [x]⟩ : Arr))).map (·.elems) = (x :: xs).map (fun x => [x]) := by
      rw [List.map_map, List.drop_zero]; rfl
    have hfl2 : ((x :: xs).map (fun x => [x])).flatten = x :: xs := by
      rw [← List.flatMap_def]
      simp
    rw [reshape, hfl, hfl2, if_pos hz]

end Verif.Gym
