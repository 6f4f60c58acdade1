import Verif.Utils.TensorSpec

/-! # Helper lemmas for tensor specifications -/

namespace Verif.Utils.TSpec

theorem create_fields {ty shape min max num c} (h : create ty shape min max num = some c) :
    c.ty = ty ∧ c.shape = shape ∧ c.num = num ∧ validShape shape = true ∧
    (num = none → c.min = min ∧ c.max = max ∧ boundOk ty min = true ∧ boundOk ty max = true ∧ gapOk min max = true) ∧
    (∀ n, num = some n → ty.hasInt = true ∧ c.min = (if n = 0 then none else some 0) ∧
      c.max = (if n = 0 then none else some ((n : Rat) - 1))) := by
  simp only [create] at h
  split at h
  · simp at h
  · split at h
    · simp at h
    · split at h
      · simp at h
      · cases num with
        | none =>
          simp only [Option.some.injEq] at h
          subst h
          simp_all
        | some n =>
          simp only at h
          split at h
          · simp at h
          · split at h <;> (simp only [Option.some.injEq] at h; subst h; simp_all)

/-- In a specification with `num_values` the bounds are those of the range. -/
theorem made_num {a : Spec} (h : Made a) {n : Nat} (hn : a.num = some n) :
    a.min = (if n = 0 then none else some 0) ∧ a.max = (if n = 0 then none else some ((n : Rat) - 1)) := by
  obtain ⟨ty, shape, min, max, num, hc⟩ := h
  have := create_fields hc
  have hnum : num = some n := by rw [← this.2.2.1]; exact hn
  exact (this.2.2.2.2.2 n hnum).2

theorem unifyTy_iff {a b c : Ty} (h : unifyTy a b = some c) (x : Base) : tyOk c x ↔ tyOk a x ∧ tyOk b x := by
  cases a <;> cases b <;> simp only [unifyTy, Option.some.injEq] at h
  case many.many l m =>
    split at h
    · rename_i hs
      cases h
      simp only [List.all_eq_true, List.contains_iff_mem] at hs
      simp only [tyOk]
      exact ⟨fun h => ⟨h, hs x h⟩, fun h => h.1⟩
    · split at h
      · rename_i hs
        cases h
        simp only [List.all_eq_true, List.contains_iff_mem] at hs
        simp only [tyOk]
        exact ⟨fun h => ⟨hs x h, h⟩, fun h => h.2⟩
      · simp at h
  all_goals first
    | (subst h; simp [tyOk])
    | (split at h
       · rename_i hs; cases h; simp only [tyOk, List.contains_iff_mem] at hs ⊢
         first | grind | (subst hs; simp [tyOk])
       · simp at h)

theorem unifyDim_iff {a b c : Dim} (h : unifyDim a b = some c) (ha : a ≠ none) (hb : b ≠ none)
    (va : ∀ k, a = some k → -1 ≤ k) (vb : ∀ k, b = some k → -1 ≤ k) :
    c ≠ none ∧ ∀ n, dimOk c n ↔ dimOk a n ∧ dimOk b n := by
  cases a with
  | none => exact absurd rfl ha
  | some x =>
    cases b with
    | none => exact absurd rfl hb
    | some y =>
      have := va x rfl
      have := vb y rfl
      simp only [unifyDim, Option.some.injEq] at h
      repeat' split at h
      all_goals first
        | (simp at h; done)
        | (simp only [Option.some.injEq] at h
           subst h
           refine ⟨by simp, fun n => ?_⟩
           simp only [dimOk]
           omega)

theorem unifyDims_iff {s o c : List Dim} (h : unifyDims s o = some c) (hs : none ∉ s) (ho : none ∉ o)
    (vs : ∀ k, some k ∈ s → -1 ≤ k) (vo : ∀ k, some k ∈ o → -1 ≤ k) :
    none ∉ c ∧ ∀ ns, dimsOk c ns ↔ dimsOk s ns ∧ dimsOk o ns := by
  induction s generalizing o c with
  | nil =>
    cases o with
    | nil => simp only [unifyDims, Option.some.injEq] at h; subst h; simp
    | cons _ _ => simp [unifyDims] at h
  | cons a s ih =>
    cases o with
    | nil => simp [unifyDims] at h
    | cons b o =>
      simp only [unifyDims] at h
      split at h
      · rename_i d ds hd hds
        cases h
        simp only [List.mem_cons, not_or] at hs ho
        obtain ⟨d1, d2⟩ := unifyDim_iff hd (fun e => hs.1 e.symm) (fun e => ho.1 e.symm)
          (fun k e => vs k (by simp [e])) (fun k e => vo k (by simp [e]))
        obtain ⟨i1, i2⟩ := ih hds hs.2 ho.2 (fun k e => vs k (by simp [e])) (fun k e => vo k (by simp [e]))
        refine ⟨by simp only [List.mem_cons, not_or]; exact ⟨fun e => d1 e.symm, i1⟩, fun ns => ?_⟩
        cases ns with
        | nil => simp [dimsOk]
        | cons n ns => simp only [dimsOk, d2 n, i2 ns]; grind
      · simp at h

theorem shapeOk_concrete (ds : List Dim) (h : none ∉ ds) (ns : List Nat) : shapeOk (some ds) ns ↔ dimsOk ds ns := by
  cases ds with
  | nil => rfl
  | cons d ds =>
    cases d with
    | none => simp at h
    | some k => rfl

theorem valid_dims {ds : List Dim} (h : validShape (some ds) = true) (k : Int) (hk : some k ∈ ds) : -1 ≤ k := by
  cases ds with
  | nil => simp at hk
  | cons d ds =>
    simp only [validShape, Bool.and_eq_true, List.all_eq_true] at h
    rcases List.mem_cons.mp hk with e | e
    · rw [← e] at h; simpa using h.1
    · simpa using h.2 _ e

theorem made_valid {a : Spec} (h : Made a) : validShape a.shape = true := by
  obtain ⟨ty, shape, min, max, num, hc⟩ := h
  have := create_fields hc
  rw [this.2.1]; exact this.2.2.2.1

theorem unifyShape_iff {s o c : Option (List Dim)} (h : unifyShape s o = some c)
    (hs : ∀ ds, s = some ds → none ∉ ds) (ho : ∀ ds, o = some ds → none ∉ ds)
    (vs : validShape s = true) (vo : validShape o = true) (ns : List Nat) :
    shapeOk c ns ↔ shapeOk s ns ∧ shapeOk o ns := by
  cases s with
  | none => simp only [unifyShape, Option.some.injEq] at h; subst h; simp [shapeOk]
  | some s =>
    cases o with
    | none => simp only [unifyShape, Option.some.injEq] at h; subst h; simp [shapeOk]
    | some o =>
      have hs := hs s rfl
      have ho := ho o rfl
      simp only [unifyShape] at h
      split at h
      · simp at h
      · split at h
        · rename_i e; subst e; simp at hs
        · split at h
          · simp at h
          · split at h
            · rename_i e; subst e; simp at ho
            · rw [Option.map_eq_some_iff] at h
              obtain ⟨ds, hd, rfl⟩ := h
              obtain ⟨i1, i2⟩ := unifyDims_iff hd hs ho (valid_dims vs) (valid_dims vo)
              rw [shapeOk_concrete ds i1, shapeOk_concrete s hs, shapeOk_concrete o ho]
              exact i2 ns

theorem larger_lo (a b : Option Rat) (x : Rat) : loOk (larger a b) x ↔ loOk a x ∧ loOk b x := by
  cases a <;> cases b <;> simp only [larger, loOk]
  case some.some a b =>
    split <;> simp only [Option.some.injEq] <;> grind
  all_goals simp

theorem larger_hi (a b : Option Rat) (x : Rat) (ha : hiOk a x) (hb : hiOk b x) : hiOk (larger a b) x := by
  cases a <;> cases b <;> simp only [larger, hiOk] at *
  case some.some a b => split <;> simp_all
  all_goals simp_all

theorem larger_hi_eq (a b : Option Rat) (x : Rat) (he : ∀ p q, a = some p → b = some q → p = q)
    (h : hiOk (larger a b) x) : hiOk a x ∧ hiOk b x := by
  cases a <;> cases b <;> simp only [larger, hiOk] at *
  case some.some a b =>
    have := he a b rfl rfl
    subst this
    simp_all
  all_goals simp_all

theorem larger_comm (a b : Option Rat) : larger a b = larger b a := by
  cases a <;> cases b <;> simp only [larger]
  case some.some a b => split <;> split <;> grind

/-- The successful cases of `unify`. -/
theorem unify_cases {a b c : Spec} (h : unify a b = some c) :
    ∃ ty shape, unifyTy a.ty b.ty = some ty ∧ unifyShape a.shape b.shape = some shape ∧
      c.ty = ty ∧ c.shape = shape ∧
      ((unifyNum ty a b = some none ∧ c.num = none ∧
          c.min = (if ty = .one .bool then none else larger a.min b.min) ∧
          c.max = (if ty = .one .bool then none else larger a.max b.max)) ∨
       (∃ n, unifyNum ty a b = some (some n) ∧ c.num = some n ∧ ty.hasInt = true ∧
          c.min = (if n = 0 then none else some 0) ∧ c.max = (if n = 0 then none else some ((n : Rat) - 1)))) := by
  simp only [unify] at h
  split at h
  · simp at h
  · rename_i ty hty
    split at h
    · simp at h
    · rename_i shape hsh
      generalize hmn : (if ty = Ty.one Base.bool then none else larger a.min b.min) = mn at h
      generalize hmx : (if ty = Ty.one Base.bool then none else larger a.max b.max) = mx at h
      split at h
      · simp at h
      · split at h
        · simp at h
        · rename_i hn
          have f := create_fields h
          exact ⟨ty, shape, hty, hsh, f.1, f.2.1,
            .inl ⟨hn, f.2.2.1, hmn ▸ (f.2.2.2.2.1 rfl).1, hmx ▸ (f.2.2.2.2.1 rfl).2.1⟩⟩
        · rename_i n hn
          have f := create_fields h
          have g := f.2.2.2.2.2 n rfl
          exact ⟨ty, shape, hty, hsh, f.1, f.2.1, .inr ⟨n, hn, f.2.2.1, g.1, g.2⟩⟩

/-- The unified `num_values` is that of one side. -/
theorem unifyNum_from {ty : Ty} {a b : Spec} {n : Nat} (h : unifyNum ty a b = some (some n)) :
    a.num = some n ∨ b.num = some n := by
  simp only [unifyNum] at h
  generalize hna : (if a.ty = Ty.one Base.int then a.num else none) = na at h
  generalize hnb : (if b.ty = Ty.one Base.int then b.num else none) = nb at h
  have ha : ∀ k, na = some k → a.num = some k := by
    intro k e; rw [← hna] at e; split at e; · exact e
    · cases e
  have hb : ∀ k, nb = some k → b.num = some k := by
    intro k e; rw [← hnb] at e; split at e; · exact e
    · cases e
  split at h
  · simp at h
  · cases na <;> cases nb <;> simp only [Option.some.injEq] at h
    case some.some p q =>
      repeat' split at h
      all_goals simp_all
    all_goals simp_all

theorem unifyNum_comm (ty : Ty) (a b : Spec) : unifyNum ty a b = unifyNum ty b a := by
  simp only [unifyNum]
  generalize (if a.ty = Ty.one Base.int then a.num else none) = na
  generalize (if b.ty = Ty.one Base.int then b.num else none) = nb
  split
  · rfl
  · cases na <;> cases nb <;> simp only
    case some.some p q => split <;> split <;> (try split) <;> simp_all <;> grind

/-- A side's own `num_values` is the unified one or unspecified. -/
theorem unifyNum_left {ty : Ty} {a b : Spec} {n m : Nat} (h : unifyNum ty a b = some (some n)) (ha : a.ty = .one .int)
    (hm : a.num = some m) : m = 0 ∨ m = n := by
  simp only [unifyNum, ha, hm, if_true] at h
  generalize (if b.ty = Ty.one Base.int then b.num else none) = nb at h
  split at h
  · simp at h
  · cases nb <;> simp only [Option.some.injEq] at h
    case none => exact .inr h
    case some q =>
      repeat' split at h
      all_goals simp_all

theorem unifyDim_comm (a b : Dim) : unifyDim a b = unifyDim b a := by
  cases a <;> cases b <;> simp only [unifyDim] <;> grind

theorem unifyDims_comm (s o : List Dim) : unifyDims s o = unifyDims o s := by
  induction s generalizing o with
  | nil => cases o <;> rfl
  | cons a s ih =>
    cases o with
    | nil => rfl
    | cons b o => simp only [unifyDims, unifyDim_comm a b, ih o]

theorem unifyDim_self (a : Dim) : unifyDim a a = some a := by
  cases a <;> simp only [unifyDim] <;> grind

theorem unifyDims_self (s : List Dim) : unifyDims s s = some s := by
  induction s with
  | nil => rfl
  | cons a s ih => simp [unifyDims, unifyDim_self, ih]

end Verif.Utils.TSpec
