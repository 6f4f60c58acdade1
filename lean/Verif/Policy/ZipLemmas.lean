import Mathlib.Algebra.Field.Defs

/-!
# A lemma about products of two lists, for `Verif/Props/Parameters.lean`
-/

namespace Verif.Policy

variable {K : Type} [Field K]

theorem zip_range (xs ys : List K) (h : xs.length = ys.length) :
    List.zipWith (· * ·) xs ys = (List.range xs.length).map fun i => xs.getD i 0 * ys.getD i 0 := by
  apply List.ext_getElem
  · simp [h]
  · intro n h1 h2
    have hx : n < xs.length := by simpa using h2
    have hy : n < ys.length := h ▸ hx
    simp [List.getD_eq_getElem?_getD, hx, hy]

end Verif.Policy
