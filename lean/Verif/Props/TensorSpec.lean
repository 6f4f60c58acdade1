import Verif.Utils.TensorSpecLemmas

/-!
# Property C23: unification of tensor specifications

The statement "a value satisfies the unified specification exactly if it satisfies both" is false; the direction from both
to unified holds for shapes without `None`, the other one under conditions on the bounds. The violations are proved.
-/

namespace Verif.Props.TensorSpec

open Verif.Utils.TSpec

private def fl (lo hi : Option Rat) : Spec := ⟨.one .float, some [some 2], lo, hi, none⟩
private def nums (n : Nat) : Spec := ⟨.one .int, some [some 2], some 0, some ((n : Rat) - 1), some n⟩
private def pair (b : Base) (x y : Rat) : Value := ⟨b, [2], [x, y]⟩

/-- Every value satisfying both specifications satisfies the unified one.
Missing: shapes with a `None` dimension (`reversed_shape_violation`). -/
theorem unify_accepts_common_partial (a b c : Spec) (ha : Made a) (hb : Made b) (ca : Concrete a) (cb : Concrete b)
    (h : unify a b = some c) (v : Value) (va : Sat a v) (vb : Sat b v) : Sat c v := by
  obtain ⟨ty, shape, h1, h2, rfl, rfl, h3⟩ := unify_cases h
  refine ⟨(unifyTy_iff h1 _).mpr ⟨va.1, vb.1⟩,
    (unifyShape_iff h2 ca cb (made_valid ha) (made_valid hb) _).mpr ⟨va.2.1, vb.2.1⟩, fun hv x hx => ?_⟩
  have xa := va.2.2 hv x hx
  have xb := vb.2.2 hv x hx
  rcases h3 with ⟨_, _, h4, h5⟩ | ⟨n, hn, _, _, h4, h5⟩
  · rw [h4, h5]
    split
    · exact ⟨fun _ e => by simp at e, fun _ e => by simp at e⟩
    · exact ⟨(larger_lo _ _ _).mpr ⟨xa.1, xb.1⟩, larger_hi _ _ _ xa.2 xb.2⟩
  · rw [h4, h5]
    rcases unifyNum_from hn with e | e
    · rw [← (made_num ha e).1, ← (made_num ha e).2]; exact xa
    · rw [← (made_num hb e).1, ← (made_num hb e).2]; exact xb

/-- The bounds of both sides survive unification: equal maxima, and no bounds beside another side's `num_values`. -/
def BoundsKept (a b c : Spec) : Prop :=
  (∀ p q, a.max = some p → b.max = some q → p = q) ∧
  (c.num.isSome = true → ∀ s, s = a ∨ s = b →
    (s.ty = .one .int ∧ s.num.isSome = true) ∨ (s.min = none ∧ s.max = none))

/-- Every value satisfying the unified specification satisfies both.
Missing: the cases excluded by `BoundsKept` (`max_violation`, `num_values_violation`) and `None` dimensions. -/
theorem unify_sound_partial (a b c : Spec) (ha : Made a) (hb : Made b) (ca : Concrete a) (cb : Concrete b)
    (h : unify a b = some c) (hk : BoundsKept a b c) (v : Value) (vc : Sat c v) : Sat a v ∧ Sat b v := by
  obtain ⟨ty, shape, h1, h2, rfl, rfl, h3⟩ := unify_cases h
  have t := (unifyTy_iff h1 _).mp vc.1
  have s := (unifyShape_iff h2 ca cb (made_valid ha) (made_valid hb) _).mp vc.2.1
  have bounds : v.base ≠ .bool → ∀ x ∈ v.elems, (loOk a.min x ∧ hiOk a.max x) ∧ (loOk b.min x ∧ hiOk b.max x) := by
    intro hv x hx
    have xc := vc.2.2 hv x hx
    rcases h3 with ⟨_, _, h4, h5⟩ | ⟨n, hn, hc, _, h4, h5⟩
    · rw [h4, h5] at xc
      have hne : c.ty ≠ .one .bool := by
        intro e
        have := vc.1
        rw [e] at this
        exact hv this.symm
      simp only [hne, if_false] at xc
      have l := (larger_lo _ _ _).mp xc.1
      have u := larger_hi_eq _ _ _ hk.1 xc.2
      exact ⟨⟨l.1, u.1⟩, l.2, u.2⟩
    · have side : ∀ s, Made s → (s = a ∨ s = b) → loOk s.min x ∧ hiOk s.max x := by
        intro s hs he
        rcases hk.2 (by simp [hc]) s he with ⟨e1, e2⟩ | ⟨e1, e2⟩
        · obtain ⟨m, hm⟩ := Option.isSome_iff_exists.mp e2
          have hmn : m = 0 ∨ m = n := by
            rcases he with rfl | rfl
            · exact unifyNum_left hn e1 hm
            · rw [unifyNum_comm] at hn; exact unifyNum_left hn e1 hm
          rw [(made_num hs hm).1, (made_num hs hm).2]
          rcases hmn with rfl | rfl
          · exact ⟨fun _ e => by simp at e, fun _ e => by simp at e⟩
          · rw [← h4, ← h5]; exact xc
        · rw [e1, e2]; exact ⟨fun _ e => by simp at e, fun _ e => by simp at e⟩
      exact ⟨side a ha (.inl rfl), side b hb (.inr rfl)⟩
  exact ⟨⟨t.1, s.1, fun hv x hx => (bounds hv x hx).1⟩, t.2, s.2, fun hv x hx => (bounds hv x hx).2⟩

example : Made (fl (some 0) (some 5)) ∧ Made (fl (some 1) none) ∧ Concrete (fl (some 0) (some 5)) ∧
    unify (fl (some 0) (some 5)) (fl (some 1) none) = some (fl (some 1) (some 5)) ∧
    BoundsKept (fl (some 0) (some 5)) (fl (some 1) none) (fl (some 1) (some 5)) ∧
    Sat (fl (some 0) (some 5)) (pair .float 2 3) ∧ Sat (fl (some 1) none) (pair .float 2 3) := by
  refine ⟨⟨.one .float, some [some 2], some 0, some 5, none, by decide +kernel⟩,
    ⟨.one .float, some [some 2], some 1, none, none, by decide +kernel⟩, ?_, by decide +kernel, ?_, ?_, ?_⟩
  · intro ds h; cases h; simp
  · exact ⟨fun p q _ h => (by simp [fl] at h), fun h => (by simp [fl] at h)⟩
  all_goals
    refine ⟨rfl, ⟨.inr rfl, trivial⟩, fun _ x hx => ?_⟩
    simp only [pair, List.mem_cons, List.not_mem_nil, or_false] at hx
    simp only [fl, loOk, hiOk, Option.some.injEq, reduceCtorEq]
    grind

/-- Different numbers of values are refused, unless one is 0 (unspecified). -/
theorem different_num_values_raise (a b : Spec) (n m : Nat) (ha : a.ty = .one .int) (hb : b.ty = .one .int)
    (hn : a.num = some n) (hm : b.num = some m) (h0 : n ≠ 0) (h1 : m ≠ 0) (hne : n ≠ m) : unify a b = none := by
  have hu : unifyNum (.one .int) a b = none := by simp [unifyNum, Ty.hasInt, ha, hb, hn, hm, h0, h1, hne]
  simp only [unify, ha, hb, unifyTy, if_true, hu]
  cases unifyShape a.shape b.shape <;> simp

example : (nums 3).ty = .one .int ∧ (nums 3).num = some 3 ∧ (nums 5).num = some 5 := ⟨rfl, rfl, rfl⟩

/-- Unification is commutative. Missing: two tuples of types (the order of the result), and `()` with `(None,)`
(`commutativity_violation`). -/
theorem unify_comm_partial (a b : Spec) (ht : ∀ l m, ¬ (a.ty = .many l ∧ b.ty = .many m))
    (h1 : ¬ (a.shape = some [] ∧ b.shape = some [none])) (h2 : ¬ (a.shape = some [none] ∧ b.shape = some [])) :
    unify a b = unify b a := by
  have ety : unifyTy a.ty b.ty = unifyTy b.ty a.ty := by
    cases ha : a.ty <;> cases hb : b.ty <;> simp only [unifyTy]
    case many.many l m => exact absurd ⟨ha, hb⟩ (ht l m)
    case one.one x y => grind
  have esh : unifyShape a.shape b.shape = unifyShape b.shape a.shape := by
    cases ha : a.shape with
    | none => cases hb : b.shape <;> rfl
    | some s =>
      cases hb : b.shape with
      | none => rfl
      | some o =>
        rw [ha, hb] at h1 h2
        simp only [Option.some.injEq] at h1 h2
        simp only [unifyShape, unifyDims_comm s o]
        by_cases e1 : s = [] <;> by_cases e2 : o = [] <;> by_cases e3 : s = [none] <;> by_cases e4 : o = [none] <;>
          simp_all
  simp only [unify, ety, esh, larger_comm a.min b.min, larger_comm a.max b.max]
  cases unifyTy b.ty a.ty with
  | none => rfl
  | some ty =>
    cases unifyShape b.shape a.shape with
    | none => rfl
    | some sh => simp only [unifyNum_comm ty a b]

example : (∀ l m, ¬ ((fl none none).ty = .many l ∧ (nums 3).ty = .many m)) ∧
    ¬ ((fl none none).shape = some [] ∧ (nums 3).shape = some [none]) := by simp [fl, nums]

/-- Unification with itself changes nothing. Missing: the shape `()` (`scalar_violation`) and tuples of
types with `num_values`. -/
theorem unify_idem_partial (a : Spec) (ha : Made a) (ht : ∀ l, a.ty = .many l → a.num = none) (hs : a.shape ≠ some []) :
    unify a a = some a := by
  obtain ⟨ty, shape, min, max, num, hc⟩ := ha
  have f := create_fields hc
  have ety : unifyTy ty ty = some ty := by
    cases ty <;> simp [unifyTy]
  have esh : unifyShape shape shape = some shape := by
    rw [f.2.1] at hs
    cases shape with
    | none => rfl
    | some s =>
      have hs' : s ≠ [] := fun e => hs (by rw [e])
      simp only [unifyShape, hs', if_false, unifyDims_self]
      split
      · rename_i e; subst e; rfl
      · rfl
  have lself : ∀ x : Option Rat, larger x x = x := by
    intro x; cases x <;> simp [larger]
  have fty := f.1
  have fsh := f.2.1
  have fnum := f.2.2.1
  simp only [unify, fty, fsh, ety, esh, lself]
  cases num with
  | none =>
    obtain ⟨fmin, fmax, b1, b2, g⟩ := f.2.2.2.2.1 rfl
    have hcl : ∀ lo hi : Option Rat, gapOk lo hi = true → clash lo hi = false := by
      intro lo hi h
      cases lo <;> cases hi <;> simp only [clash, gapOk] at *
      have : (0 : Rat) < eps := by decide +kernel
      simp at h ⊢
      grind
    have hnum : unifyNum ty a a = some none := by
      simp only [unifyNum, fnum]
      split
      · rfl
      · simp
    have hbool : ty = .one .bool → min = none ∧ max = none := by
      intro e; subst e
      cases min <;> cases max <;> simp_all [boundOk]
    rw [hnum, fmin, fmax]
    split
    · rename_i e
      obtain ⟨rfl, rfl⟩ := hbool e
      simpa [clash] using hc
    · simp only [hcl min max g, Bool.false_eq_true, if_false]; exact hc
  | some n =>
    obtain ⟨hi, fmin, fmax⟩ := f.2.2.2.2.2 n rfl
    have hint : ty = .one .int := by
      cases ty with
      | any => simp [Ty.hasInt] at hi
      | many l =>
        have := ht l fty
        rw [fnum] at this
        simp at this
      | one b => cases b <;> simp_all [Ty.hasInt]
    subst hint
    have hnum : unifyNum (.one .int) a a = some (some n) := by
      simp only [unifyNum, fty, fnum, if_true, Ty.hasInt]
      by_cases e : n = 0 <;> simp [e]
    have hcl : clash a.min a.max = false := by
      rw [fmin, fmax]
      by_cases e : n = 0
      · simp [e, clash]
      · have : (1 : Rat) ≤ (n : Rat) := by
          have : 1 ≤ n := by omega
          exact_mod_cast this
        simp [e, clash]
        grind
    simp only [reduceCtorEq, Ty.one.injEq, if_false, hcl, Bool.false_eq_true, hnum]
    have hv := f.2.2.2.1
    obtain ⟨aty, ash, amin, amax, anum⟩ := a
    simp only at fty fsh fnum fmin fmax
    subst fty fsh fnum fmin fmax
    simp only [create, hv, boundOk, gapOk, Ty.hasInt]
    by_cases e : n = 0 <;> simp [e]

example : Made (nums 3) ∧ (∀ l, (nums 3).ty = .many l → (nums 3).num = none) ∧ (nums 3).shape ≠ some [] :=
  ⟨⟨.one .int, some [some 2], none, none, some 3, by decide +kernel⟩, by simp [nums], by simp [nums]⟩

/-! ## Violations -/

/-- The larger of two maxima is taken (lines 438-441): the unified specification accepts what one side rejects. -/
theorem max_violation :
    unify (fl none (some 1)) (fl none (some 2)) = some (fl none (some 2)) ∧
      Sat (fl none (some 2)) (pair .float 2 2) ∧ ¬ Sat (fl none (some 1)) (pair .float 2 2) := by
  refine ⟨by decide +kernel, ⟨rfl, ⟨.inr rfl, trivial⟩, fun _ x hx => ?_⟩, fun h => ?_⟩
  · simp only [pair, List.mem_cons, List.not_mem_nil, or_false, or_self] at hx
    subst hx
    exact ⟨fun _ e => by simp [fl] at e, fun h e => by simp only [fl, Option.some.injEq] at e; grind⟩
  · have := (h.2.2 (by simp [pair]) 2 (by simp [pair])).2 1 rfl
    exact absurd this (by decide +kernel)

/-- Disjoint ranges are unified instead of raising. -/
theorem disjoint_violation :
    (unify (fl (some 0) (some 1)) (fl (some 2) (some 3))).isSome = true ∧
      ∀ v, v.elems ≠ [] → v.base ≠ .bool → ¬ (Sat (fl (some 0) (some 1)) v ∧ Sat (fl (some 2) (some 3)) v) := by
  refine ⟨by decide +kernel, fun v he hb h => ?_⟩
  obtain ⟨x, hx⟩ := List.exists_mem_of_ne_nil _ he
  have h1 := (h.1.2.2 hb x hx).2 1 rfl
  have h2 := (h.2.2.2 hb x hx).1 2 rfl
  grind

/-- Bounds beside the other side's `num_values` are dropped (lines 482-484). -/
theorem num_values_violation :
    unify ⟨.one .int, some [some 2], some 3, none, none⟩ (nums 10) = some (nums 10) ∧
      Sat (nums 10) (pair .int 1 1) ∧ ¬ Sat ⟨.one .int, some [some 2], some 3, none, none⟩ (pair .int 1 1) := by
  refine ⟨by decide +kernel, ⟨rfl, ⟨.inr rfl, trivial⟩, fun _ x hx => ?_⟩, fun h => ?_⟩
  · simp only [pair, List.mem_cons, List.not_mem_nil, or_false, or_self] at hx
    subst hx
    simp only [nums, loOk, hiOk, Option.some.injEq]
    exact ⟨fun l e => by subst e; decide +kernel, fun l e => by subst e; decide +kernel⟩
  · have := (h.2.2 (by simp [pair]) 1 (by simp [pair])).1 3 rfl
    exact absurd this (by decide +kernel)

/-- Scalar specifications cannot be unified: `self.shape[-1]` raises for the shape `()` (line 384). -/
theorem scalar_violation (a b : Spec) (ha : a.shape = some []) (hb : b.shape.isSome = true) : unify a b = none := by
  obtain ⟨o, ho⟩ := Option.isSome_iff_exists.mp hb
  simp only [unify, ha, ho]
  cases unifyTy a.ty b.ty <;> simp [unifyShape]

example : (⟨.one .float, some [], none, none, none⟩ : Spec).shape = some [] := rfl

/-- Unifying with the shape `(None,)` reverses the other shape (lines 384-386, 409). -/
theorem reversed_shape_violation :
    unify ⟨.one .float, some [none], none, none, none⟩ ⟨.one .float, some [some 2, some 3], none, none, none⟩ =
      some ⟨.one .float, some [some 3, some 2], none, none, none⟩ := by decide +kernel

/-- `(None,)` with `()` is unified, `()` with `(None,)` raises. -/
theorem commutativity_violation :
    (unify ⟨.one .float, some [none], none, none, none⟩ ⟨.one .float, some [], none, none, none⟩).isSome = true ∧
      unify ⟨.one .float, some [], none, none, none⟩ ⟨.one .float, some [none], none, none, none⟩ = none := by
  decide +kernel

/-- A single common value is refused: minimum and maximum must differ (line 722). -/
theorem single_value_violation (x : Rat) : unify (fl (some x) none) (fl none (some x)) = none := by
  have he : (0 : Rat) < eps := by decide +kernel
  have : x < x + eps := by grind
  have e1 : unifyTy (fl (some x) none).ty (fl none (some x)).ty = some (.one .float) := rfl
  have e2 : unifyShape (fl (some x) none).shape (fl none (some x)).shape = some (some [some 2]) := by
    simp [fl, unifyShape, unifyDims, unifyDim]
  simp only [unify, e1, e2]
  simp [fl, larger, clash, unifyNum, Ty.hasInt, create, boundOk, gapOk, this]

end Verif.Props.TensorSpec
