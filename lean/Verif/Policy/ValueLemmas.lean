import Verif.Policy.Value
import Verif.Policy.Lemmas

/-! # Lemmas about value policies -/

namespace Verif.Policy

variable {K : Type} [Field K] [LinearOrder K] [IsStrictOrderedRing K]

theorem sum_map_shift (xs : List K) (a b : K) :
    (xs.map fun v => a + (v - b)).sum = xs.sum + (xs.length : K) * (a - b) := by
  induction xs with
  | nil => simp
  | cons x xs ih =>
    rw [List.map_cons, List.sum_cons, List.sum_cons, ih, List.length_cons]
    push_cast
    ring

theorem length_ne_zero' (xs : List K) (h : xs ≠ []) : (xs.length : K) ≠ 0 := by
  have := List.length_pos_iff.2 h
  exact_mod_cast Nat.pos_iff_ne_zero.1 this

theorem mean_shift (xs : List K) (h : xs ≠ []) (a : K) :
    mean (xs.map fun v => a + (v - mean xs)) = a := by
  have hn := length_ne_zero' xs h
  unfold mean
  rw [sum_map_shift, List.length_map]
  field_simp
  ring

theorem values_length (mode : Mode) (state : K) (e : Element K) :
    (e.values mode state).length = e.outputs.length := by
  cases mode
  · rfl
  · exact List.length_map ..

/-- The entry at the position of the maximum is the maximum. -/
theorem argmax_maximum (xs : List K) (h : xs ≠ []) : xs[argmax xs]? = some (maximum xs) := by
  obtain ⟨-, b, h1, h2, -⟩ := argmax_spec xs h
  rw [h1]
  exact congrArg some (le_antisymm (le_maximum xs b (List.mem_of_getElem? h1))
    (h2 _ (maximum_mem xs h)))

end Verif.Policy
