import Verif.Utils.PyLemmas

/-!
# Properties C24 (specification equality) and C25 (configuration merging)
-/

namespace Verif.Props.Config

open Verif.Utils.Py

variable {A : Type} [DecidableEq A]

/-! ## C24 -/

/-- The comparison is true only for equal values, if corresponding sequences and arrays have equal lengths.
Missing: sequences of different lengths, for which it fails (`different_length_violation`, `broadcast_violation`). -/
theorem is_equal_sound_partial (x y : Val A) (h : isEqual x y = true) (hs : Sized x y) : Same x y :=
  isEqual_same x y h hs

/-- Equal values are always recognised. -/
theorem is_equal_complete (x y : Val A) (h : Same x y) : isEqual x y = true := same_isEqual x y h

/-- `dict(type='float', shape=(3, 4))` with entries in either order. -/
private def spec1 : Val (String ⊕ Nat) :=
  .dct (.cons "type" (.atom (.inl "float"))
    (.cons "shape" (.tup (.cons (.atom (.inr 3)) (.cons (.atom (.inr 4)) .nil))) .nil))
private def spec2 : Val (String ⊕ Nat) :=
  .dct (.cons "shape" (.tup (.cons (.atom (.inr 3)) (.cons (.atom (.inr 4)) .nil)))
    (.cons "type" (.atom (.inl "float")) .nil))

example : isEqual spec1 spec2 = true ∧ Sized spec1 spec2 ∧ Same spec1 spec2 := by
  refine ⟨by decide, ⟨fun y hy => ?_, fun y hy => ?_, trivial⟩, rfl, ⟨_, rfl, rfl⟩, ⟨_, rfl, rfl, rfl, trivial⟩, trivial⟩
  · cases hy; trivial
  · cases hy; exact ⟨trivial, trivial, trivial⟩

/-- Violation: shapes `(n,)` and `(n, m)` are considered equal (line 133: `zip` stops at the shorter one). -/
theorem different_length_violation (n m : A) :
    isEqual (.dct (.cons "shape" (.tup (.cons (.atom n) .nil)) .nil))
      (.dct (.cons "shape" (.tup (.cons (.atom n) (.cons (.atom m) .nil))) .nil)) = true ∧
    ¬ Same (.dct (.cons "shape" (.tup (.cons (.atom n) .nil)) .nil))
      (.dct (.cons "shape" (.tup (.cons (.atom n) (.cons (.atom m) .nil))) .nil)) := by
  constructor
  · simp [isEqual, isEqualEnts, isEqualZip, Ents.find, Ents.length]
  · rintro ⟨-, ⟨y, hy, hs⟩, -⟩
    simp only [Ents.find, if_true, Option.some.injEq] at hy
    subst hy
    exact hs.2

/-- Violation: the empty shape is considered equal to every shape. -/
theorem empty_shape_violation (ys : Vals A) : isEqual (.tup .nil : Val A) (.tup ys) = true := by
  simp [isEqual, isEqualZip]

/-- Violation: a one-element array is considered equal to a longer constant array (line 140: broadcasting). -/
theorem broadcast_violation (a : Int) (n : Nat) : isEqual (.arr [a] : Val A) (.arr (List.replicate n a)) = true := by
  simp only [isEqual, arrEq]
  split
  · rename_i h
    simp only [List.length_cons, List.length_nil, List.length_replicate] at h
    have : n = 1 := by omega
    subst this
    simp
  · simp [List.all_eq_true]

/-! ## C25 -/

/-- Every setting of the target is in the merged configuration, unchanged. -/
theorem merge_keeps_target (t s m : Ents A) (hu : UniqE s) (h : merge t s = some m) (p : List String) (v : Val A)
    (ht : (Val.dct t).at p = some v) (hv : v.isDict = false) : (Val.dct m).at p = some v :=
  keeps_target p (.dct t) (.dct s) (.dct m) hu (by simp [mergeVal, h]) v ht hv

/-- Every setting of the source is in the merged configuration: itself, or an equal setting of the target. -/
theorem merge_keeps_source (t s m : Ents A) (hu : UniqE s) (h : merge t s = some m) (p : List String) (v : Val A)
    (hs : (Val.dct s).at p = some v) (hv : v.isDict = false) :
    ∃ w, (Val.dct m).at p = some w ∧ (w = v ∨ ((Val.dct t).at p = some w ∧ Agree w v)) :=
  keeps_source p (.dct t) (.dct s) (.dct m) hu (by simp [mergeVal, h]) v hs hv

/-- The merged configuration has no other settings. -/
theorem merge_adds_nothing (t s m : Ents A) (hu : UniqE s) (h : merge t s = some m) (p : List String) (v : Val A)
    (hm : (Val.dct m).at p = some v) (hv : v.isDict = false) :
    (Val.dct t).at p = some v ∨ (Val.dct s).at p = some v :=
  origin p (.dct t) (.dct s) (.dct m) hu (by simp [mergeVal, h]) v hm hv

/-- Merging raises exactly if at some path the two sides conflict. -/
theorem merge_raises_iff (t s : Ents A) (hu : UniqE s) :
    merge t s = none ↔ ∃ p x y, (Val.dct t).at p = some x ∧ (Val.dct s).at p = some y ∧ Conflict x y := by
  constructor
  · intro h
    exact none_conflict (.dct t) (.dct s) hu (by simp [mergeVal, h])
  · rintro ⟨p, x, y, h1, h2, h3⟩
    simpa [mergeVal] using conflict_raises p (.dct t) (.dct s) hu x y h1 h2 h3

/-- `{a: {x: 1}, b: 2}`, `{a: {y: 3}, b: 2}`, `{a: {x: 9}}` -/
private def cfg1 : Ents Nat :=
  .cons "a" (.dct (.cons "x" (.atom 1) .nil)) (.cons "b" (.atom 2) .nil)
private def cfg2 : Ents Nat :=
  .cons "a" (.dct (.cons "y" (.atom 3) .nil)) (.cons "b" (.atom 2) .nil)
private def cfg3 : Ents Nat := .cons "a" (.dct (.cons "x" (.atom 9) .nil)) .nil

example : UniqE cfg2 ∧ (merge cfg1 cfg2).isSome = true ∧ (Val.dct cfg2).at ["a", "y"] = some (.atom 3) ∧
    merge cfg1 cfg3 = none := by
  simp [cfg1, cfg2, cfg3, UniqE, Uniq, merge, mergeVal, Ents.find, Ents.put, Val.at, pyEq, Val.elems]

/-- Violation of "equal settings are accepted": the same array on both sides raises unless it has one element (line 188
takes the truth value of an array). -/
theorem equal_array_violation (k : String) (xs : List Int) (h : xs.length ≠ 1) :
    merge (.cons k (.arr xs) .nil : Ents A) (.cons k (.arr xs) .nil) = none := by
  simp [merge, mergeVal, Ents.find, pyEq, Val.elems, h]

/-- A list and a tuple with equal elements do not conflict; the target's is kept. -/
theorem list_tuple_agree (k : String) (a : A) :
    merge (.cons k (.lst (.cons (.atom a) .nil)) .nil : Ents A) (.cons k (.tup (.cons (.atom a) .nil)) .nil) =
      some (.cons k (.lst (.cons (.atom a) .nil)) .nil) := by
  simp [merge, mergeVal, Ents.find, Ents.put, pyEqs, pyEq, Val.elems]

end Verif.Props.Config
