import Verif.Convert.Lemmas

/-!
# Lemmas about creating, saving and copying specifications
-/

namespace Verif.Convert

theorem toType_eq (type : Base) (q : Rat) : toType type q = rounded type q := by
  cases type <;> rfl

theorem convertBound_one (type : Base) (q : Rat) : convertBound type (.one q) = .one (rounded type q) :=
  congrArg Bound.one (toType_eq type q)

theorem toType_idem (type : Base) (q : Rat) : toType type (toType type q) = toType type q := by
  unfold toType
  by_cases h : type = .int
  · rw [if_pos h, if_pos h]
    unfold truncate
    by_cases h0 : 0 ≤ q
    · rw [if_pos h0]
      exact truncate_int _
    · rw [if_neg h0]
      exact truncate_int _
  · rw [if_neg h, if_neg h]

/-- The entries of the bound are of the type. -/
def Stable (type : Base) : Bound → Prop
  | .one q => toType type q = q
  | .many a => ∀ i, toType type (a.get i) = a.get i

theorem convertBound_stable (type : Base) (r : Raw) : Stable type (convertBound type r) := by
  unfold convertBound
  split
  · exact toType_idem ..
  · split
    · exact toType_idem ..
    · exact fun i => toType_idem ..
  · exact fun i => toType_idem ..

theorem convertBound_save {type : Base} {b : Bound} (h : Stable type b) : convertBound type (saveBound b) = b := by
  cases b with
  | one q => exact congrArg Bound.one h
  | many a =>
    show Bound.many ⟨a.shape, fun i => toType type (a.get i)⟩ = _
    rw [funext h]

/-- The bound is not an array with one entry. -/
def NotSingle : Bound → Prop
  | .one _ => True
  | .many a => (indices a.shape).length ≠ 1

theorem convertBound_pass {type : Base} {b : Bound} (h : Stable type b) (hn : NotSingle b) : convertBound type (passBound b) = b := by
  cases b with
  | one q => exact congrArg Bound.one h
  | many a =>
    show (match indices a.shape with
      | [i] => Bound.one (toType type (a.get i))
      | _ => Bound.many ⟨a.shape, fun i => toType type (a.get i)⟩) = _
    split
    · rename_i i hi
      exact (hn (congrArg List.length hi)).elim
    · rw [funext h]

theorem convertBound_single {type : Base} {r : Raw} (h : NoLists (some r)) : NotSingle (convertBound type r) := by
  cases r with
  | one q => trivial
  | array a =>
    show NotSingle (match indices a.shape with
      | [i] => Bound.one (toType type (a.get i))
      | _ => Bound.many ⟨a.shape, fun i => toType type (a.get i)⟩)
    split
    · trivial
    · rename_i hn
      intro hl
      obtain ⟨i, hi⟩ := List.length_eq_one_iff.mp hl
      exact hn i hi
  | lists a => exact h.elim

theorem setMin_ok (type : Base) (shape : List Int) (r : Raw) (b : Bound) :
    setMin type shape r = .ok b ↔ type ≠ .bool ∧ boundShape shape b = true ∧ b = convertBound type r := by
  unfold setMin
  by_cases h1 : type = .bool
  · rw [if_pos h1]
    exact ⟨nofun, fun h => (h.1 h1).elim⟩
  · rw [if_neg h1]
    by_cases h2 : boundShape shape (convertBound type r) = true
    · rw [if_neg (by simp [h2])]
      constructor
      · intro h
        cases h
        exact ⟨h1, h2, rfl⟩
      · rintro ⟨_, _, rfl⟩
        rfl
    · rw [if_pos (by simpa using h2)]
      exact ⟨nofun, fun h => (h2 (h.2.2 ▸ h.2.1)).elim⟩

/-- The bounds are consistent. -/
def Apart (lo : Option Bound) (hi : Bound) : Prop := ∀ l, lo = some l → tooClose hi l = .ok false

theorem setMax_ok (type : Base) (shape : List Int) (lo : Option Bound) (r : Raw) (b : Bound) :
    setMax type shape lo r = .ok b ↔ type ≠ .bool ∧ boundShape shape b = true ∧ Apart lo b ∧ b = convertBound type r := by
  unfold setMax
  by_cases h1 : type = .bool
  · rw [if_pos h1]
    exact ⟨nofun, fun h => (h.1 h1).elim⟩
  · rw [if_neg h1]
    by_cases h2 : boundShape shape (convertBound type r) = true
    · rw [if_neg (by simp [h2])]
      cases lo with
      | none =>
        constructor
        · intro h
          cases h
          exact ⟨h1, h2, nofun, rfl⟩
        · rintro ⟨_, _, _, rfl⟩
          rfl
      | some l =>
        dsimp only
        rw [bind_ok]
        constructor
        · rintro ⟨c, hc, h⟩
          cases c with
          | true => cases h
          | false =>
            cases h
            refine ⟨h1, h2, ?_, rfl⟩
            intro l' e
            cases e
            exact hc
        · rintro ⟨_, _, ha, rfl⟩
          exact ⟨false, ha l rfl, rfl⟩
    · rw [if_pos (by simpa using h2)]
      exact ⟨nofun, fun h => (h2 (h.2.2.2 ▸ h.2.1)).elim⟩

theorem optional_ok {α β : Type} (f : α → Except Err β) (x : Option α) (y : Option β) :
    optional f x = .ok y ↔ (x = none ∧ y = none) ∨ ∃ a b, x = some a ∧ y = some b ∧ f a = .ok b := by
  cases x with
  | none =>
    constructor
    · intro h
      cases h
      exact .inl ⟨rfl, rfl⟩
    · rintro (⟨_, rfl⟩ | ⟨a, b, h, _⟩)
      · rfl
      · cases h
  | some a =>
    show (f a).map some = .ok y ↔ _
    cases hf : f a with
    | error e =>
      constructor
      · intro h
        cases h
      · rintro (⟨h, _⟩ | ⟨a', b, h, _, h2⟩)
        · cases h
        · cases h
          rw [hf] at h2
          cases h2
    | ok b =>
      constructor
      · intro h
        cases h
        exact .inr ⟨a, b, rfl, rfl, hf⟩
      · rintro (⟨h, _⟩ | ⟨a', b', h, h1, h2⟩)
        · cases h
        · cases h
          rw [hf] at h2
          cases h2
          rw [h1, Except.map]

theorem setNum_ok (type : Base) (shape : List Int) (n : Int) (s : Spec) : setNum ⟨type, shape, none, none, none⟩ n = .ok s ↔
    type = .int ∧ 0 ≤ n ∧ s = ⟨.int, shape, if 0 < n then some (.one 0) else none, if 0 < n then some (.one (n - 1)) else none, some n⟩ := by
  unfold setNum
  dsimp only
  by_cases h1 : type = .int
  · subst h1
    rw [if_neg (by simp)]
    by_cases h2 : n < 0
    · rw [if_pos h2]
      exact ⟨nofun, fun h => by omega⟩
    · rw [if_neg h2]
      by_cases h3 : 0 < n
      · simp only [h3, if_true]
        constructor
        · intro h
          cases h
          exact ⟨trivial, by omega, rfl⟩
        · rintro ⟨_, _, rfl⟩
          rfl
      · simp only [h3, if_false]
        constructor
        · intro h
          cases h
          exact ⟨trivial, by omega, rfl⟩
        · rintro ⟨_, _, rfl⟩
          rfl
  · rw [if_pos h1]
    exact ⟨nofun, fun h => (h1 h.1).elim⟩

/-- The shape is allowed. -/
theorem shape_iff (shape : List Int) : shape.any (fun d => d < -1) = false ↔ ∀ d ∈ shape, -1 ≤ d := by
  rw [List.any_eq_false]
  constructor
  · intro h d hd
    have := h d hd
    simp only [decide_eq_true_eq] at this
    omega
  · intro h d hd
    have := h d hd
    simp only [decide_eq_true_eq]
    omega

/-- Creation with a number of values. -/
theorem create_num (type : Base) (shape : List Int) (min max : Option Raw) (n : Int) (s : Spec) :
    create type shape min max (some n) = .ok s ↔ (∀ d ∈ shape, -1 ≤ d) ∧ min = none ∧ max = none ∧ type = .int ∧ 0 ≤ n ∧
      s = ⟨.int, shape, if 0 < n then some (.one 0) else none, if 0 < n then some (.one (n - 1)) else none, some n⟩ := by
  unfold create
  by_cases h0 : shape.any (fun d => d < -1) = true
  · rw [if_pos h0]
    refine ⟨nofun, fun h => ?_⟩
    rw [(shape_iff shape).mpr h.1] at h0
    cases h0
  · rw [if_neg h0]
    have hs := (shape_iff shape).mp (by simpa using h0)
    by_cases h1 : (min.isSome || max.isSome) = true
    · have hb : ¬ (min = none ∧ max = none) := by
        rintro ⟨rfl, rfl⟩
        cases h1
      refine ⟨fun h => ?_, fun h => (hb ⟨h.2.1, h.2.2.1⟩).elim⟩
      by_cases ht : type = .bool
      · subst ht
        rw [if_neg (by simp)] at h
        obtain ⟨lo, hlo, h⟩ := (bind_ok ..).mp h
        obtain ⟨hi, hhi, h⟩ := (bind_ok ..).mp h
        rcases (optional_ok ..).mp hlo with ⟨e1, _⟩ | ⟨a, b, e1, e2, h3⟩
        · rcases (optional_ok ..).mp hhi with ⟨e2, _⟩ | ⟨a, b, e1, e2, h3⟩
          · exact (hb ⟨e1, e2⟩).elim
          · exact (((setMax_ok ..).mp h3).1 rfl).elim
        · exact (((setMin_ok ..).mp h3).1 rfl).elim
      · rw [if_pos (by simp [ht]; simpa using h1)] at h
        cases h
    · have hm : min = none := by
        cases min with
        | none => rfl
        | some a => exact (h1 rfl).elim
      have hM : max = none := by
        cases max with
        | none => rfl
        | some a => exact (h1 (by cases min <;> rfl)).elim
      subst hm
      subst hM
      rw [if_neg (by simp)]
      show setNum ⟨type, shape, none, none, none⟩ n = .ok s ↔ _
      rw [setNum_ok]
      exact ⟨fun h => ⟨hs, rfl, rfl, h⟩, fun h => h.2.2.2⟩

/-- Creation with bounds. -/
theorem create_bounds (type : Base) (shape : List Int) (min max : Option Raw) (s : Spec) :
    create type shape min max none = .ok s ↔ (∀ d ∈ shape, -1 ≤ d) ∧
      ∃ lo hi, optional (setMin type shape) min = .ok lo ∧ optional (setMax type shape lo) max = .ok hi ∧ s = ⟨type, shape, lo, hi, none⟩ := by
  unfold create
  by_cases h0 : shape.any (fun d => d < -1) = true
  · rw [if_pos h0]
    refine ⟨nofun, fun h => ?_⟩
    rw [(shape_iff shape).mpr h.1] at h0
    cases h0
  · rw [if_neg h0, if_neg (by simp)]
    have hs := (shape_iff shape).mp (by simpa using h0)
    rw [bind_ok]
    constructor
    · rintro ⟨lo, hlo, h⟩
      obtain ⟨hi, hhi, h⟩ := (bind_ok ..).mp h
      cases h
      exact ⟨hs, lo, hi, hlo, hhi, rfl⟩
    · rintro ⟨_, lo, hi, hlo, hhi, rfl⟩
      exact ⟨lo, hlo, (bind_ok ..).mpr ⟨hi, hhi, rfl⟩⟩

/-- Creating again from bounds which are converted to what they were. -/
theorem create_again {type : Base} {shape : List Int} {min max : Option Raw} {s : Spec} (g : Bound → Raw)
    (h : create type shape min max none = .ok s)
    (hg : ∀ b, (∃ r, (min = some r ∨ max = some r) ∧ b = convertBound type r) → convertBound type (g b) = b) :
    create type shape (s.min.map g) (s.max.map g) none = .ok s := by
  obtain ⟨hs, lo, hi, hlo, hhi, rfl⟩ := (create_bounds ..).mp h
  refine (create_bounds ..).mpr ⟨hs, lo, hi, ?_, ?_, rfl⟩
  · rcases (optional_ok ..).mp hlo with ⟨_, rfl⟩ | ⟨a, b, e1, rfl, h3⟩
    · rfl
    · obtain ⟨h4, h5, h6⟩ := (setMin_ok ..).mp h3
      exact (optional_ok ..).mpr (.inr ⟨g b, b, rfl, rfl, (setMin_ok ..).mpr ⟨h4, h5, (hg b ⟨a, .inl e1, h6⟩).symm⟩⟩)
  · rcases (optional_ok ..).mp hhi with ⟨_, rfl⟩ | ⟨a, b, e1, rfl, h3⟩
    · rfl
    · obtain ⟨h4, h5, h6, h7⟩ := (setMax_ok ..).mp h3
      exact (optional_ok ..).mpr (.inr ⟨g b, b, rfl, rfl, (setMax_ok ..).mpr ⟨h4, h5, h6, (hg b ⟨a, .inr e1, h7⟩).symm⟩⟩)

/-- Without a number of values, truth values have no bounds. -/
theorem create_bool {shape : List Int} {min max : Option Raw} {s : Spec} (h : create .bool shape min max none = .ok s) :
    min = none ∧ max = none ∧ s = ⟨.bool, shape, none, none, none⟩ := by
  obtain ⟨hs, lo, hi, hlo, hhi, rfl⟩ := (create_bounds ..).mp h
  rcases (optional_ok ..).mp hlo with ⟨e1, rfl⟩ | ⟨a, b, e1, rfl, h3⟩
  · rcases (optional_ok ..).mp hhi with ⟨e2, rfl⟩ | ⟨a, b, e1, rfl, h3⟩
    · exact ⟨e1, e2, rfl⟩
    · exact (((setMax_ok ..).mp h3).1 rfl).elim
  · exact (((setMin_ok ..).mp h3).1 rfl).elim

theorem create_type {type : Base} {shape : List Int} {min max : Option Raw} {s : Spec} (h : create type shape min max none = .ok s) :
    s.type = type ∧ s.shape = shape ∧ s.num = none := by
  obtain ⟨_, _, _, _, _, rfl⟩ := (create_bounds ..).mp h
  exact ⟨rfl, rfl, rfl⟩

theorem anyPair_same {α β : Type} (p : α → β → Bool) (x : Arr α) (b : Arr β) (h : x.shape = b.shape) :
    anyPair p x b = .ok ((indices x.shape).any (fun i => p (x.get i) (b.get i))) := by
  unfold anyPair
  have hb : bshape x.shape b.shape = some x.shape := by
    rw [← h]
    exact bshape_suffix [] x.shape
  rw [hb]
  dsimp only
  congr 1
  rw [Bool.eq_iff_iff, List.any_eq_true, List.any_eq_true]
  constructor
  · rintro ⟨i, hi, h2⟩
    rw [← h, bindex_self _ _ hi] at h2
    exact ⟨i, hi, h2⟩
  · rintro ⟨i, hi, h2⟩
    refine ⟨i, hi, ?_⟩
    rw [← h, bindex_self _ _ hi]
    exact h2

theorem indices_single (shape i : List Nat) (h : indices shape = [i]) : i = shape.map (fun _ => 0) := by
  have hm : ∀ shape : List Nat, (∀ j, j ∈ indices shape → j = i) → i ∈ indices shape → i = shape.map (fun _ => 0) := by
    intro shape
    clear h
    induction shape generalizing i with
    | nil => exact fun _ hi => (mem_indices_nil i).mp hi
    | cons n r ih =>
      intro hall hi
      obtain ⟨k, t, rfl, hk, ht⟩ := (mem_indices_cons n r i).mp hi
      have h0 : k = 0 := by
        have := hall (0 :: t) ((mem_indices_cons n r _).mpr ⟨0, t, rfl, by omega, ht⟩)
        exact ((List.cons.inj this).1).symm
      subst h0
      have ht2 := ih t (fun j hj => (List.cons.inj (hall (0 :: j) ((mem_indices_cons n r _).mpr ⟨0, j, rfl, hk, hj⟩))).2) ht
      rw [List.map_cons, ← ht2]
  refine hm shape (fun j hj => ?_) ?_
  · rw [h] at hj
    exact List.mem_singleton.mp hj
  · rw [h]
    exact List.mem_cons_self ..

theorem convertBound_at (type : Base) (r : Raw) (i : List Nat) : boundAt (convertBound type r) i = rounded type (rawAt r i) := by
  cases r with
  | one q => exact toType_eq ..
  | lists a => exact toType_eq ..
  | array a =>
    show boundAt (match indices a.shape with
      | [i] => Bound.one (toType type (a.get i))
      | _ => Bound.many ⟨a.shape, fun i => toType type (a.get i)⟩) i = rounded type (a.get _)
    split
    · rename_i j hj
      rw [hj, List.length_singleton, if_pos rfl, ← indices_single a.shape j hj]
      exact toType_eq ..
    · rename_i hn
      rw [if_neg]
      · exact toType_eq ..
      · intro hl
        obtain ⟨j, hj⟩ := List.length_eq_one_iff.mp hl
        exact hn j hj

end Verif.Convert
