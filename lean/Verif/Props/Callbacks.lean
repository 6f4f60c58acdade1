import Verif.Launch.Command

/-!
# C138: several callbacks

A run goes on as long as no callback returns false.
-/

namespace Verif.Props.Callbacks

open Verif.Launch

/-- Without callback the run goes on. -/
theorem absent : goesOn .none = true := rfl

/-- With one callback the run goes on unless it returns false. -/
theorem single (x : Ret) : goesOn (.one x) = true ↔ x ≠ .bool false := by
  cases x with
  | none => simp [goesOn]
  | bool b => cases b <;> simp [goesOn]

example : goesOn (.one .none) = true ∧ goesOn (.one (.bool false)) = false := by decide

theorem sequential_false (l : List Ret) : (sequential (.bool false) l).truth = false := by
  induction l with
  | nil => rfl
  | cons x xs ih => exact ih

theorem sequential_none (l : List Ret) : sequential .none l = .none := by
  induction l with
  | nil => rfl
  | cons x xs ih => exact ih

/-- With several callbacks the run goes on exactly if all of them return true. -/
theorem all_true (l : List Ret) : goesOn (.many l) = true ↔ ∀ x ∈ l, x = .bool true := by
  unfold goesOn
  simp only
  induction l with
  | nil => simp [sequential, Ret.truth]
  | cons x xs ih =>
    cases x with
    | none =>
      have : sequential (.bool true) (.none :: xs) = .none := sequential_none xs
      rw [this]
      simp [Ret.truth]
    | bool b =>
      cases b with
      | true =>
        have : sequential (.bool true) (.bool true :: xs) = sequential (.bool true) xs := rfl
        rw [this, ih]
        simp
      | false =>
        have : sequential (.bool true) (.bool false :: xs) = sequential (.bool false) xs := rfl
        rw [this, sequential_false]
        simp

example : goesOn (.many [.bool true, .bool true]) = true ∧ goesOn (.many [.bool true, .bool false]) = false := by decide

/-- If all callbacks return a truth value the run goes on unless one returns false. Missing for the property: callbacks which return nothing, see
`nothing_violation`. -/
theorem several_partial (l : List Bool) : goesOn (.many (l.map Ret.bool)) = true ↔ .bool false ∉ l.map Ret.bool := by
  rw [all_true]
  constructor
  · intro h hf
    have := h _ hf
    simp at this
  · intro h x hx
    obtain ⟨b, hb, rfl⟩ := List.mem_map.mp hx
    cases b with
    | true => rfl
    | false => exact (h (List.mem_map.mpr ⟨false, hb, rfl⟩)).elim

example : Ret.bool false ∉ [true, true].map Ret.bool := by decide

/-- A single callback which returns nothing lets the run go on, the same callback in a list ends it. -/
theorem nothing_violation : goesOn (.one .none) = true ∧ goesOn (.many [.none]) = false ∧ goesOn (.many [.bool true, .none, .bool true]) = false := by decide

end Verif.Props.Callbacks
