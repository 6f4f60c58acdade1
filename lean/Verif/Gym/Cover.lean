import Verif.Gym.Dict
import Verif.Gym.State

/-! # Every element of an action space is reached -/

namespace Verif.Gym

theorem fitsItems_append_intro : ∀ {ls ks : List (Name × Leaf)} {as bs : List (Name × Arr)}, fitsItems ls as = true →
    fitsItems ks bs = true → fitsItems (ls ++ ks) (as ++ bs) = true
  | [], ks, [], bs, _, h => h
  | (n, l) :: ls, ks, (m, a) :: as, bs, h, h' => by
    simp only [fitsItems, Bool.and_eq_true] at h
    simp only [List.cons_append, fitsItems, Bool.and_eq_true]
    exact ⟨h.1, fitsItems_append_intro h.2 h'⟩
  | [], _, _ :: _, _, h, _ => by simp [fitsItems] at h
  | _ :: _, _, [], _, h, _ => by simp [fitsItems] at h

theorem fits_under {name : Name} {sp : Spec} {f : Flat} (h : sp.fits f = true) : fitsItems (underSpec name sp) (under name f) = true := by
  cases sp with
  | leaf l =>
    cases f with
    | one a => rw [Spec.fits] at h; simp [underSpec, under, fitsItems, h]
    | many as => simp [Spec.fits] at h
  | dict items =>
    cases f with
    | one a => simp [Spec.fits] at h
    | many as =>
      rw [Spec.fits] at h
      rw [underSpec, under]
      revert as
      induction items with
      | nil =>
        intro as h
        cases as with
        | nil => rfl
        | cons x as => simp [fitsItems] at h
      | cons x items ih =>
        intro as h
        cases as with
        | nil => simp [fitsItems] at h
        | cons y as =>
          simp only [fitsItems, Bool.and_eq_true, beq_iff_eq] at h
          simp only [List.map_cons, fitsItems, Bool.and_eq_true, beq_iff_eq]
          exact ⟨⟨by rw [h.1.1], h.1.2⟩, ih as h.2⟩

theorem under_inj {name : Name} {f g : Flat} {sp : Spec} (hf : sp.fits f = true) (hg : sp.fits g = true)
    (h : under name f = under name g) : f = g := by
  cases sp with
  | leaf l =>
    cases f with
    | many as => simp [Spec.fits] at hf
    | one a =>
      cases g with
      | many as => simp [Spec.fits] at hg
      | one b => simp only [under, List.cons.injEq, Prod.mk.injEq, and_true, true_and] at h; rw [h]
  | dict items =>
    cases f with
    | one a => simp [Spec.fits] at hf
    | many as =>
      cases g with
      | one b => simp [Spec.fits] at hg
      | many bs =>
        simp only [under] at h
        congr 1
        have inj : Function.Injective (fun x : Name × Arr => (name ++ '_' :: x.1, x.2)) := by
          intro x y e
          simp only [Prod.mk.injEq] at e
          exact Prod.ext (List.cons.inj (List.append_cancel_left e.1)).2 e.2
        exact (List.map_inj_right inj).mp h

theorem under_length {name : Name} {f g : Flat} {sp : Spec} (hf : sp.fits f = true) (hg : sp.fits g = true) :
    (under name f).length = (under name g).length := by
  have h1 := fitsItems_names (fits_under (name := name) hf)
  have h2 := fitsItems_names (fits_under (name := name) hg)
  have h := h1.trans h2.symm
  have := congrArg List.length h
  simpa using this

theorem numbered_inj {shape : Name} : ∀ {xs ys : List Num} {n : Nat}, numbered shape n xs = numbered shape n ys → xs = ys
  | [], [], _, _ => rfl
  | x :: xs, y :: ys, n, h => by
    simp only [numbered, List.cons.injEq, Prod.mk.injEq, true_and, Arr.mk.injEq, and_true] at h
    rw [h.1, numbered_inj h.2]
  | [], _ :: _, _, h => by simp [numbered] at h
  | _ :: _, [], _, h => by simp [numbered] at h

theorem mdc_fits {shape : Name} : ∀ (nvec : List Nat) (xs : List Num) (n : Nat), xs.length = nvec.length →
    (List.zipWith natBelow nvec xs).all id = true → fitsItems (mdcForm shape n nvec) (numbered shape n xs) = true
  | [], [], n, _, _ => rfl
  | v :: nvec, x :: xs, n, hl, h => by
    simp only [List.zipWith_cons_cons, List.all_cons, id, Bool.and_eq_true] at h
    simp only [mdcForm, numbered, fitsItems, Bool.and_eq_true, beq_self_eq_true, true_and]
    refine ⟨?_, mdc_fits nvec xs (n + 1) (by simpa using hl) h.2⟩
    simp only [Leaf.fits, List.all_cons, List.all_nil, Bool.and_true, Limit.below, Limit.above, size, okNum_int, h.1]
    rfl
  | [], _ :: _, _, hl, _ => by simp at hl
  | _ :: _, [], _, hl, _ => by simp at hl

theorem plain_array {s : Space} (hp : s.plain = true) {v : Value} (hm : s.mem v = true) : ∃ a, v = .array a := by
  cases s with
  | box shape low high => exact simple_array (s := .box shape low high) rfl hm
  | _ => exact simple_array (by simpa [Space.plain] using hp) hm

/-- What is shown for each supported space: its elements fit its specification and differ in their components. -/
def Covered (s : Space) (sp : Spec) : Prop :=
  (∀ v, s.mem v = true → sp.fits (named s v) = true) ∧ ∀ v w, s.mem v = true → s.mem w = true → named s v = named s w → v = w

theorem covered_plain {s : Space} (hw : s.wf = true) (hp : s.plain = true) {sp : Spec} (hsp : specs false none none s = .ok sp) :
    Covered s sp := by
  obtain ⟨l, h1, h2, h3⟩ := plain_ok hw hp
  rw [h1] at hsp
  simp only [Except.ok.injEq] at hsp
  subst hsp
  refine ⟨fun v hv => ?_, fun v w hv hw' h => ?_⟩
  · obtain ⟨a, rfl⟩ := plain_array hp hv
    rw [h3, Spec.fits, h2]
    exact hv
  · obtain ⟨a, rfl⟩ := plain_array hp hv
    obtain ⟨b, rfl⟩ := plain_array hp hw'
    rw [h3, h3] at h
    simp only [Flat.one.injEq] at h
    rw [h]

theorem covered_tuple : ∀ (ss : List Space) (n : Nat) (items : List (Name × Leaf)), wfTuple ss = true → ss.all Space.plain = true →
    tupleForm false n ss = .ok items →
    (∀ vs, memTuple ss vs = true → fitsItems items (namedTuple n ss vs) = true) ∧
      ∀ vs ws, memTuple ss vs = true → memTuple ss ws = true → namedTuple n ss vs = namedTuple n ss ws → vs = ws
  | [], n, items, _, _, h => by
    simp only [tupleForm, Except.ok.injEq] at h
    subst h
    refine ⟨fun vs hv => ?_, fun vs ws hv hw _ => ?_⟩
    · cases vs with
      | nil => rfl
      | cons v vs => simp [memTuple] at hv
    · cases vs with
      | nil =>
        cases ws with
        | nil => rfl
        | cons w ws => simp [memTuple] at hw
      | cons v vs => simp [memTuple] at hv
  | s :: ss, n, items, hw, hp, h => by
    simp only [wfTuple, Bool.and_eq_true] at hw
    simp only [List.all_cons, Bool.and_eq_true] at hp
    rw [tupleForm] at h
    cases hsp : specs false none none s with
    | error e => rw [hsp] at h; simp at h
    | ok sp =>
      rw [hsp] at h
      dsimp only at h
      cases hr : tupleForm false (n + 1) ss with
      | error e => rw [hr] at h; simp at h
      | ok rest =>
        rw [hr] at h
        simp only [Except.ok.injEq] at h
        subst h
        obtain ⟨c1, c2⟩ := covered_plain hw.1 hp.1 hsp
        obtain ⟨d1, d2⟩ := covered_tuple ss (n + 1) rest hw.2 hp.2 hr
        refine ⟨fun vs hv => ?_, fun vs ws hv hw' e => ?_⟩
        · cases vs with
          | nil => simp [memTuple] at hv
          | cons v vs =>
            simp only [memTuple, Bool.and_eq_true] at hv
            rw [namedTuple]
            exact fitsItems_append_intro (fits_under (c1 v hv.1)) (d1 vs hv.2)
        · cases vs with
          | nil => simp [memTuple] at hv
          | cons v vs =>
            cases ws with
            | nil => simp [memTuple] at hw'
            | cons w ws =>
              simp only [memTuple, Bool.and_eq_true] at hv hw'
              rw [namedTuple, namedTuple] at e
              obtain ⟨e1, e2⟩ := List.append_inj e (under_length (c1 v hv.1) (c1 w hw'.1))
              rw [c2 v w hv.1 hw'.1 (under_inj (c1 v hv.1) (c1 w hw'.1) e1), d2 vs ws hv.2 hw'.2 e2]

mutual
theorem covered : ∀ (s : Space) (sp : Spec), s.wf = true → s.supported = true → specs false none none s = .ok sp → Covered s sp
  | .discrete n, sp, hw, hs, h => covered_plain hw rfl h
  | .multiBinary n, sp, hw, hs, h => covered_plain hw rfl h
  | .box shape low high, sp, hw, hs, h => covered_plain hw (by simpa only [Space.supported] using hs) h
  | .other, sp, hw, hs, h => by simp [Space.wf] at hw
  | .multiDiscrete shape nvec, sp, hw, hs, h => by
    cases hu : uniform nvec with
    | true => exact covered_plain hw (by simp [Space.plain, Space.simple, hu]) h
    | false =>
      simp only [Space.wf, Bool.and_eq_true, beq_iff_eq, decide_eq_true_eq] at hw
      rw [specs_mdc hw.1.1.2 hu] at h
      simp only [Except.ok.injEq] at h
      subst h
      refine ⟨fun v hv => ?_, fun v w hv hw' e => ?_⟩
      · cases v with
        | tuple vs => simp [Space.mem] at hv
        | dict vs => simp [Space.mem] at hv
        | array a =>
          simp only [Space.mem, Bool.and_eq_true, beq_iff_eq] at hv
          simp only [named, hu, Bool.false_eq_true, if_false, Spec.fits]
          exact mdc_fits nvec a.elems 0 hv.1.2 hv.2
      · cases v with
        | tuple vs => simp [Space.mem] at hv
        | dict vs => simp [Space.mem] at hv
        | array a =>
          cases w with
          | tuple vs => simp [Space.mem] at hw'
          | dict vs => simp [Space.mem] at hw'
          | array b =>
            simp only [Space.mem, Bool.and_eq_true, beq_iff_eq] at hv hw'
            simp only [named, hu, Bool.false_eq_true, if_false, Flat.many.injEq] at e
            obtain ⟨s1, e1⟩ := a
            obtain ⟨s2, e2⟩ := b
            have := numbered_inj e
            dsimp only at this hv hw'
            rw [this, hv.1.1, hw'.1.1]
  | .tuple ss, sp, hw, hs, h => by
    simp only [Space.wf] at hw
    simp only [Space.supported, Bool.and_eq_true, decide_eq_true_eq] at hs
    rw [specs_tuple hw (plain_goodNamesTuple hs.2)] at h
    obtain ⟨items, hi, rfl⟩ := except_map_ok h
    obtain ⟨c1, c2⟩ := covered_tuple ss 0 items hw hs.2 hi
    refine ⟨fun v hv => ?_, fun v w hv hw' e => ?_⟩
    · cases v with
      | tuple vs => rw [Space.mem] at hv; rw [named, Spec.fits]; exact c1 vs hv
      | array a => simp [Space.mem] at hv
      | dict vs => simp [Space.mem] at hv
    · cases v with
      | array a => simp [Space.mem] at hv
      | dict vs => simp [Space.mem] at hv
      | tuple vs =>
        cases w with
        | array a => simp [Space.mem] at hw'
        | dict ws => simp [Space.mem] at hw'
        | tuple ws =>
          rw [Space.mem] at hv hw'
          rw [named, named, Flat.many.injEq] at e
          rw [c2 vs ws hv hw' e]
  | .dict ss, sp, hw, hs, h => by
    have hg := (works (.dict ss) hw hs).2
    simp only [Space.wf, Bool.and_eq_true, decide_eq_true_eq] at hw
    simp only [Space.supported, Bool.and_eq_true] at hs
    rw [Space.goodNames] at hg
    rw [specs_dict hw.1 hw.2 hg] at h
    obtain ⟨items, hi, rfl⟩ := except_map_ok h
    obtain ⟨c1, c2⟩ := covered_dict ss items hw.1 hs.2 hi
    refine ⟨fun v hv => ?_, fun v w hv hw' e => ?_⟩
    · cases v with
      | dict vs => rw [Space.mem] at hv; rw [named, Spec.fits]; exact c1 vs hv
      | array a => simp [Space.mem] at hv
      | tuple vs => simp [Space.mem] at hv
    · cases v with
      | array a => simp [Space.mem] at hv
      | tuple vs => simp [Space.mem] at hv
      | dict vs =>
        cases w with
        | array a => simp [Space.mem] at hw'
        | tuple ws => simp [Space.mem] at hw'
        | dict ws =>
          rw [Space.mem] at hv hw'
          rw [named, named, Flat.many.injEq] at e
          rw [c2 vs ws hv hw' e]
theorem covered_dict : ∀ (ss : List (Name × Space)) (items : List (Name × Leaf)), wfDict ss = true → supportedDict ss = true →
    dictForm false ss = .ok items →
    (∀ vs, memDict ss vs = true → fitsItems items (namedDict ss vs) = true) ∧
      ∀ vs ws, memDict ss vs = true → memDict ss ws = true → namedDict ss vs = namedDict ss ws → vs = ws
  | [], items, _, _, h => by
    simp only [dictForm, Except.ok.injEq] at h
    subst h
    refine ⟨fun vs hv => ?_, fun vs ws hv hw _ => ?_⟩
    · cases vs with
      | nil => rfl
      | cons v vs => simp [memDict] at hv
    · cases vs with
      | nil =>
        cases ws with
        | nil => rfl
        | cons w ws => simp [memDict] at hw
      | cons v vs => simp [memDict] at hv
  | (name, s) :: ss, items, hw, hp, h => by
    simp only [wfDict, Bool.and_eq_true] at hw
    simp only [supportedDict, Bool.and_eq_true] at hp
    rw [dictForm] at h
    cases hsp : specs false none none s with
    | error e => rw [hsp] at h; simp at h
    | ok sp =>
      rw [hsp] at h
      dsimp only at h
      cases hr : dictForm false ss with
      | error e => rw [hr] at h; simp at h
      | ok rest =>
        rw [hr] at h
        simp only [Except.ok.injEq] at h
        subst h
        obtain ⟨c1, c2⟩ := covered s sp hw.1 hp.1 hsp
        obtain ⟨d1, d2⟩ := covered_dict ss rest hw.2 hp.2 hr
        refine ⟨fun vs hv => ?_, fun vs ws hv hw' e => ?_⟩
        · cases vs with
          | nil => simp [memDict] at hv
          | cons v vs =>
            obtain ⟨m, v⟩ := v
            simp only [memDict, Bool.and_eq_true] at hv
            rw [namedDict]
            exact fitsItems_append_intro (fits_under (c1 v hv.1.2)) (d1 vs hv.2)
        · cases vs with
          | nil => simp [memDict] at hv
          | cons v vs =>
            obtain ⟨m, v⟩ := v
            cases ws with
            | nil => simp [memDict] at hw'
            | cons w ws =>
              obtain ⟨m', w⟩ := w
              simp only [memDict, Bool.and_eq_true, beq_iff_eq] at hv hw'
              rw [namedDict, namedDict] at e
              obtain ⟨e1, e2⟩ := List.append_inj e (under_length (c1 v hv.1.2) (c1 w hw'.1.2))
              rw [c2 v w hv.1.2 hw'.1.2 (under_inj (c1 v hv.1.2) (c1 w hw'.1.2) e1), d2 vs ws hv.2 hw'.2 e2, ← hv.1.1, ← hw'.1.1]
end

end Verif.Gym
