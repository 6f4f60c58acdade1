import Verif.Gym.Works

/-! # `unflatten_action` on dictionaries -/

namespace Verif.Gym

theorem put_last {α : Type} {name : Name} {x y : α} : ∀ {acc : List (Name × α)}, (∀ z ∈ acc, z.1 ≠ name) →
    put name y (acc ++ [(name, x)]) = acc ++ [(name, y)]
  | [], _ => by simp [put]
  | (n, z) :: acc, h => by
    rw [List.cons_append, put, if_neg (h (n, z) (List.mem_cons_self ..)), put_last (fun w hw => h w (List.mem_cons_of_mem _ hw))]
    rfl

theorem look_last {α : Type} {name : Name} {x : α} {acc : List (Name × α)} (h : ∀ z ∈ acc, z.1 ≠ name) :
    look name (acc ++ [(name, x)]) = some x := by
  rw [look_append h, look, if_pos rfl]

theorem group_rest {name : Name} (hc : '_' ∉ name) (rest : List (Name × Arr)) {acc : List (Name × Item)}
    (ha : ∀ z ∈ acc, z.1 ≠ name) : ∀ (items done : List (Name × Arr)), ((done ++ items).map (·.1)).Nodup →
    group (under name (.many items) ++ rest) (acc ++ [(name, .many done)]) = group rest (acc ++ [(name, .many (done ++ items))])
  | [], done, _ => by simp [under]
  | (n, a) :: items, done, h => by
    have hf : ∀ y ∈ done, y.1 ≠ n := by
      intro y hy e
      rw [List.map_append, List.nodup_append] at h
      exact h.2.2 y.1 (List.mem_map.mpr ⟨y, hy, rfl⟩) n (by simp) e
    have ih := group_rest hc rest ha items (done ++ [(n, a)]) (by simpa using h)
    rw [under, List.map_cons, List.cons_append, group, after_append _ hc]
    dsimp only
    rw [before_append _ hc, look_last ha]
    dsimp only
    rw [put_last ha, put_fresh hf]
    rw [under] at ih
    rw [ih]
    simp

/-- The entry which the loop makes of the entries of one component. -/
def Flat.item : Flat → Item
  | .one a => .one a
  | .many items => .many items

def Flat.okNames : Flat → Prop
  | .one _ => True
  | .many items => items ≠ [] ∧ (items.map (·.1)).Nodup

theorem group_under {name : Name} (hc : '_' ∉ name) (rest : List (Name × Arr)) {acc : List (Name × Item)}
    (ha : ∀ z ∈ acc, z.1 ≠ name) (f : Flat) (hf : f.okNames) :
    group (under name f ++ rest) acc = group rest (acc ++ [(name, f.item)]) := by
  cases f with
  | one a =>
    rw [under, List.cons_append, List.nil_append, group, after_clean hc]
    dsimp only
    rw [put_fresh ha]
    rfl
  | many items =>
    cases items with
    | nil => exact absurd rfl hf.1
    | cons x items =>
      obtain ⟨n, a⟩ := x
      have h := group_rest hc rest ha items [(n, a)] (by simpa using hf.2)
      rw [under, List.map_cons, List.cons_append, group, after_append _ hc]
      dsimp only
      rw [before_append _ hc, look_none ha]
      dsimp only
      rw [put_fresh ha]
      exact h

/-- What is shown for each supported space with its specification. -/
def WorksFor (s : Space) : Spec → Prop
  | .leaf l => ∀ a, l.fits a = true → s.mem (.array a) = true ∧ named s (.array a) = .one a
  | .dict items => items ≠ [] ∧ ∀ as, fitsItems items as = true →
      ∃ v, (∀ k, depth as ≤ k → unflattenMany k as = .ok v) ∧ s.mem v = true ∧ named s v = .many as

def Works (s : Space) : Prop := ∃ sp, specs false none none s = .ok sp ∧ sp.okNames ∧ WorksFor s sp

/-- A component of a dictionary with fitting values. -/
theorem works_value {s : Space} {sp : Spec} (hk : sp.okNames) (hw : WorksFor s sp) {f : Flat} (hf : sp.fits f = true) :
    f.okNames ∧ ∃ v, s.mem v = true ∧ named s v = f ∧
      ∀ k name gs, depth (under name f) ≤ k + 1 →
        unflattenItems (unflattenMany k) ((name, f.item) :: gs) =
          (unflattenItems (unflattenMany k) gs).map ((name, v) :: ·) := by
  cases sp with
  | leaf l =>
    cases f with
    | many as => simp [Spec.fits] at hf
    | one a =>
      obtain ⟨h1, h2⟩ := hw a hf
      refine ⟨trivial, .array a, h1, h2, ?_⟩
      intro k name gs _
      rw [Flat.item, unflattenItems]
      cases unflattenItems (unflattenMany k) gs <;> rfl
  | dict items =>
    cases f with
    | one a => simp [Spec.fits] at hf
    | many as =>
      have hn := fitsItems_names hf
      have hne : as ≠ [] := by
        intro e
        rw [e] at hn
        exact hw.1 (by simpa using hn.symm)
      obtain ⟨v, h1, h2, h3⟩ := hw.2 as hf
      refine ⟨⟨hne, hn ▸ hk.1⟩, v, h2, h3, ?_⟩
      intro k name gs hd
      have := depth_under (name := name) hne
      rw [Flat.item, unflattenItems, h1 k (by omega)]
      dsimp only
      cases unflattenItems (unflattenMany k) gs <;> rfl

theorem under_ne_nil {name : Name} {f : Flat} (h : f.okNames) : under name f ≠ [] := by
  cases f with
  | one a => simp [under]
  | many items => simpa [under] using h.1

/-- The loops over the entries of a dictionary. -/
theorem dict_entries : ∀ (ss : List (Name × Space)), (∀ x ∈ ss, Works x.2) → (∀ x ∈ ss, '_' ∉ x.1) → (ss.map (·.1)).Nodup →
    (∃ items, dictForm false ss = .ok items ∧ (ss ≠ [] → items ≠ [])) ∧
      ∀ items as, dictForm false ss = .ok items → fitsItems items as = true →
        ∃ gs vs, (∀ acc : List (Name × Item), (∀ z ∈ acc, z.1 ∉ ss.map (·.1)) → group as acc = .ok (acc ++ gs)) ∧
          (∀ k, depth as ≤ k + 1 → unflattenItems (unflattenMany k) gs = .ok vs) ∧
          memDict ss vs = true ∧ namedDict ss vs = as ∧
          (∀ x ∈ ss, ∃ y ∈ as, y.1 = x.1 ∨ ∃ m, y.1 = x.1 ++ '_' :: m)
  | [], _, _, _ => by
    refine ⟨⟨[], rfl, fun h => absurd rfl h⟩, ?_⟩
    intro items as hi h
    simp only [dictForm, Except.ok.injEq] at hi
    subst hi
    cases as with
    | nil => exact ⟨[], [], fun acc _ => by simp [group], fun k _ => rfl, rfl, rfl, by simp⟩
    | cons x as => simp [fitsItems] at h
  | (name, s) :: ss, hw, hc, hn => by
    rw [List.map_cons, List.nodup_cons] at hn
    obtain ⟨sp, hsp, hok, hfor⟩ := hw _ (List.mem_cons_self ..)
    have hc1 := hc _ (List.mem_cons_self ..)
    obtain ⟨⟨items, hi, -⟩, hrec⟩ := dict_entries ss (fun x hx => hw x (List.mem_cons_of_mem _ hx))
      (fun x hx => hc x (List.mem_cons_of_mem _ hx)) hn.2
    have hform : dictForm false ((name, s) :: ss) = .ok (underSpec name sp ++ items) := by
      rw [dictForm]
      dsimp only at hsp
      rw [hsp]
      dsimp only
      rw [hi]
    refine ⟨⟨_, hform, fun _ h => ?_⟩, ?_⟩
    · have := (List.append_eq_nil_iff.mp h).1
      cases sp with
      | leaf l => simp [underSpec] at this
      | dict its => exact hfor.1 (by simpa [underSpec] using this)
    · intro items' as hi' h
      rw [hform] at hi'
      simp only [Except.ok.injEq] at hi'
      subst hi'
      obtain ⟨bs, cs, rfl, hb, hcs⟩ := fitsItems_append h
      obtain ⟨f, hf, rfl⟩ := fitsItems_under hb
      obtain ⟨hfok, v, hv, hname, hun⟩ := works_value hok hfor hf
      obtain ⟨gs, vs, h1, h2, h3, h4, h5⟩ := hrec items cs hi hcs
      refine ⟨(name, f.item) :: gs, (name, v) :: vs, ?_, ?_, ?_, ?_, ?_⟩
      · intro acc ha
        have ha1 : ∀ z ∈ acc, z.1 ≠ name := fun z hz e => ha z hz (by simp [e])
        rw [group_under hc1 cs ha1 f hfok, h1]
        · simp
        · intro z hz
          rcases List.mem_append.mp hz with hz | hz
          · exact fun hm => ha z hz (List.mem_cons_of_mem _ hm)
          · rw [List.mem_singleton] at hz
            subst hz
            exact hn.1
      · intro k hk
        have hd := depth_append (under name f) cs
        have hd2 := depth_pos cs
        have hd3 := depth_pos (under name f)
        rw [hun k name gs (by omega), h2 k (by omega)]
        rfl
      · simp only [memDict, h3, hv, beq_self_eq_true, Bool.and_self]
      · rw [namedDict, hname, h4]
      · intro x hx
        rcases List.mem_cons.mp hx with rfl | hx
        · cases hu : under name f with
          | nil => exact absurd hu (under_ne_nil hfok)
          | cons y ys =>
            refine ⟨y, by simp, ?_⟩
            cases f with
            | one a =>
              simp only [under, List.cons.injEq] at hu
              left
              rw [← hu.1]
            | many its =>
              have hy : y ∈ under name (.many its) := by rw [hu]; exact List.mem_cons_self ..
              obtain ⟨z, -, rfl⟩ := List.mem_map.mp hy
              exact .inr ⟨z.1, rfl⟩
        · obtain ⟨y, hy, e⟩ := h5 x hx
          exact ⟨y, List.mem_append_right _ hy, e⟩

/-! ## All supported spaces -/

theorem plain_goodNames {s : Space} (h : s.plain = true) : s.goodNames = true := by
  cases s <;> simp_all [Space.plain, Space.simple, Space.goodNames]

theorem plain_goodNamesTuple : ∀ {ss : List Space}, ss.all Space.plain = true → goodNamesTuple ss = true
  | [], _ => rfl
  | s :: ss, h => by
    simp only [List.all_cons, Bool.and_eq_true] at h
    rw [goodNamesTuple, plain_goodNames h.1, plain_goodNamesTuple h.2]
    rfl

theorem goodNamesDict_of : ∀ {ss : List (Name × Space)}, ss.all (fun x => goodName x.1) = true →
    (∀ x ∈ ss, x.2.goodNames = true) → goodNamesDict ss = true
  | [], _, _ => rfl
  | (n, s) :: ss, h, hs => by
    simp only [List.all_cons, Bool.and_eq_true] at h
    rw [goodNamesDict, h.1, hs _ (List.mem_cons_self ..), goodNamesDict_of h.2 (fun x hx => hs x (List.mem_cons_of_mem _ hx))]
    rfl

theorem works_plain {s : Space} (hw : s.wf = true) (hp : s.plain = true) : Works s := by
  obtain ⟨l, h1, h2, h3⟩ := plain_ok hw hp
  exact ⟨.leaf l, h1, ⟨by simp [Spec.names], by simp [Spec.names]⟩, fun a ha => ⟨by rw [← h2]; exact ha, h3 a⟩⟩

theorem some_other {pre : Name} (hp : '_' ∉ pre) {ss : List (Name × Space)} (h : someOther pre ss = true) {as : List (Name × Arr)}
    (ha : ∀ x ∈ ss, ∃ y ∈ as, y.1 = x.1 ∨ ∃ m, y.1 = x.1 ++ '_' :: m) : allStart pre as = false := by
  rw [someOther, List.any_eq_true] at h
  obtain ⟨x, hx, hn⟩ := h
  obtain ⟨y, hy, e⟩ := ha x hx
  refine allStart_false hy ?_
  rw [Bool.eq_false_iff]
  intro hpre
  have hx' : pre.isPrefixOf x.1 = true := by
    rcases e with e | ⟨m, e⟩
    · rw [← e]; exact hpre
    · rw [e] at hpre
      exact prefix_clean hp hpre
  rw [hx'] at hn
  simp at hn

theorem works_dict {ss : List (Name × Space)} (hw : (Space.dict ss).wf = true) (hs : (Space.dict ss).supported = true)
    (ih : ∀ x ∈ ss, Works x.2 ∧ x.2.goodNames = true) : Works (.dict ss) := by
  simp only [Space.wf, Bool.and_eq_true, decide_eq_true_eq] at hw
  simp only [Space.supported, Bool.and_eq_true] at hs
  obtain ⟨⟨⟨⟨hg, hm⟩, hb⟩, ht⟩, -⟩ := hs
  have hg' := goodNamesDict_of hg (fun x hx => (ih x hx).2)
  have hc : ∀ x ∈ ss, '_' ∉ x.1 := fun x hx => (goodName_iff.mp (List.all_eq_true.mp hg x hx)).1
  have hne : ss ≠ [] := by
    intro e
    rw [e] at hm
    simp [someOther] at hm
  obtain ⟨⟨items, hi, hitems⟩, hrec⟩ := dict_entries ss (fun x hx => (ih x hx).1) hc hw.2
  have hspec : specs false none none (.dict ss) = .ok (.dict items) := by
    rw [specs_dict hw.1 hw.2 hg', hi]
    rfl
  refine ⟨.dict items, hspec, specs_okNames false (.dict ss) none none _ (by simp [Space.wf, hw]) (by
    rw [Space.goodNames]; exact hg') hspec, hitems hne, ?_⟩
  intro as hfit
  obtain ⟨gs, vs, h1, h2, h3, h4, h5⟩ := hrec items as hi hfit
  refine ⟨.dict vs, ?_, ?_, ?_⟩
  · intro k hk
    cases k with
    | zero => have := depth_pos as; omega
    | succ k =>
      rw [unflattenMany.eq_def]
      dsimp only
      rw [some_other (by decide) hm h5, some_other (by decide) hb h5, some_other (by decide) ht h5]
      have hgr := h1 [] (by simp)
      rw [List.nil_append] at hgr
      simp only [Bool.or_self, Bool.false_eq_true, if_false]
      rw [hgr]
      dsimp only
      rw [h2 k hk]
  · rw [Space.mem]; exact h3
  · rw [named, h4]

theorem works_tuple {ss : List Space} (hw : (Space.tuple ss).wf = true) (hs : (Space.tuple ss).supported = true) :
    Works (.tuple ss) := by
  simp only [Space.wf] at hw
  simp only [Space.supported, Bool.and_eq_true, decide_eq_true_eq] at hs
  have hg := plain_goodNamesTuple hs.2
  obtain ⟨⟨items, hi, hitems⟩, -⟩ := tuple_entries ss 0 [] hw hs.2
  have hspec : specs false none none (.tuple ss) = .ok (.dict items) := by
    rw [specs_tuple hw hg, hi]
    rfl
  refine ⟨.dict items, hspec, specs_okNames false (.tuple ss) none none _ (by rw [Space.wf]; exact hw) (by
    rw [Space.goodNames]; exact hg) hspec, hitems hs.1, ?_⟩
  intro as hfit
  obtain ⟨xs, h1, h2, h3, h4, h5⟩ := (tuple_entries ss 0 as hw hs.2).2 items hi hfit
  refine ⟨.tuple (xs.map .array), ?_, ?_, ?_⟩
  · intro k hk
    cases k with
    | zero => have := depth_pos as; omega
    | succ k =>
      rw [h1]
      refine unflatten_tuple ?_ h3 k
      intro e
      rw [e] at h2
      exact hs.1 (List.length_eq_zero_iff.mp h2.symm)
  · rw [Space.mem]; exact h4
  · rw [named, h5]

theorem works_mdc {shape nvec : List Nat} (hw : (Space.multiDiscrete shape nvec).wf = true)
    (hs : (Space.multiDiscrete shape nvec).supported = true) : Works (.multiDiscrete shape nvec) := by
  cases hu : uniform nvec with
  | true => exact works_plain hw (by simp [Space.plain, Space.simple, hu])
  | false =>
    have hw' := hw
    simp only [Space.wf, Bool.and_eq_true, beq_iff_eq, decide_eq_true_eq] at hw
    obtain ⟨⟨⟨h1, h2⟩, h3⟩, -⟩ := hw
    simp only [Space.supported, hu, Bool.false_or, decide_eq_true_eq] at hs
    have hspec := specs_mdc (inf := false) (mn := none) (mx := none) (shape := shape) h2 hu
    refine ⟨_, hspec, specs_okNames false _ none none _ hw' rfl hspec, ?_, ?_⟩
    · cases nvec with
      | nil => exact absurd rfl h2
      | cons x xs => simp [mdcForm]
    · intro as hfit
      obtain ⟨xs, g1, g2, g3, g4⟩ := mdc_entries nvec 0 as hfit
      refine ⟨.array ⟨shape, xs⟩, ?_, ?_, ?_⟩
      · intro k hk
        cases k with
        | zero => have := depth_pos as; omega
        | succ k =>
          rw [g1]
          refine unflatten_mdc h3 ?_ (by omega) (by omega) g4 k
          intro e
          rw [e] at g2
          exact h2 (List.length_eq_zero_iff.mp g2.symm)
      · simp only [Space.mem, g2, g3, beq_self_eq_true, Bool.and_self]
      · simp only [named, hu, Bool.false_eq_true, if_false, g1]

mutual
theorem works : ∀ (s : Space), s.wf = true → s.supported = true → Works s ∧ s.goodNames = true
  | .discrete n, hw, hs => ⟨works_plain hw rfl, rfl⟩
  | .multiBinary n, hw, hs => ⟨works_plain hw rfl, rfl⟩
  | .box shape low high, hw, hs => ⟨works_plain hw (by simpa only [Space.supported] using hs), rfl⟩
  | .other, hw, hs => by simp [Space.wf] at hw
  | .multiDiscrete shape nvec, hw, hs => ⟨works_mdc hw hs, rfl⟩
  | .tuple ss, hw, hs => by
    refine ⟨works_tuple hw hs, ?_⟩
    simp only [Space.supported, Bool.and_eq_true] at hs
    rw [Space.goodNames]
    exact plain_goodNamesTuple hs.2
  | .dict ss, hw, hs => by
    have hw' := hw
    have hs' := hs
    simp only [Space.wf, Bool.and_eq_true] at hw
    simp only [Space.supported, Bool.and_eq_true] at hs
    have ih := works_all ss hw.1 hs.2
    refine ⟨works_dict hw' hs' ih, ?_⟩
    rw [Space.goodNames]
    exact goodNamesDict_of hs.1.1.1.1 (fun x hx => (ih x hx).2)
theorem works_all : ∀ (ss : List (Name × Space)), wfDict ss = true → supportedDict ss = true →
    ∀ x ∈ ss, Works x.2 ∧ x.2.goodNames = true
  | [], _, _, x, hx => by simp at hx
  | (n, s) :: ss, hw, hs, x, hx => by
    simp only [wfDict, Bool.and_eq_true] at hw
    simp only [supportedDict, Bool.and_eq_true] at hs
    rcases List.mem_cons.mp hx with e | hx
    · rw [e]
      exact works s hw.1 hs.1
    · exact works_all ss hw.2 hs.2 x hx
end

/-- The action which reaches the environment. -/
theorem works_unflatten {s : Space} {sp : Spec} (h : WorksFor s sp) {a : Flat} (ha : sp.fits a = true) :
    ∃ v, unflatten a = .ok v ∧ s.mem v = true ∧ named s v = a := by
  cases sp with
  | leaf l =>
    cases a with
    | many as => simp [Spec.fits] at ha
    | one a =>
      obtain ⟨h1, h2⟩ := h a ha
      refine ⟨.array a, ?_, h1, h2⟩
      rw [unflatten, unflattenArr, if_pos (fits_fin ha)]
  | dict items =>
    cases a with
    | one a => simp [Spec.fits] at ha
    | many as =>
      obtain ⟨v, h1, h2, h3⟩ := h.2 as ha
      exact ⟨v, h1 _ (Nat.le_refl _), h2, h3⟩

end Verif.Gym
