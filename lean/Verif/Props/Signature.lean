import Verif.Utils.SignatureLemmas

/-!
# Property C22: argument flattening is invertible
-/

namespace Verif.Props.Signature

open Verif.Utils.Nested Verif.Utils.Signature

variable {S V : Type} {compat : S → V → Bool}

/-- For every signature with unique names, flattening matching arguments succeeds and rebuilding returns them, with empty
sub-dictionaries and singletons restored. Missing: singletons directly inside singletons (`nested_singleton_violation`). -/
theorem flatten_roundtrip_partial (t : Tree S) (x : Tree V) (hd : ∀ s, t ≠ .leaf s) (hw : Wf t) (hp : Plain t)
    (h : Matches compat t x) : ∃ a, flat compat t x = some a ∧ rebuild compat t a = some x :=
  roundtrip t x hd hw hp h

/-- `{a: {}, b: (singleton), c: {d: _}}` -/
private def sig (v : Nat) : Tree Nat :=
  .node (.cons "a" (.node .nil) (.cons "b" (.sing (.leaf v)) (.cons "c" (.node (.cons "d" (.leaf v) .nil)) .nil)))

example : (∀ s, sig 0 ≠ .leaf s) ∧ Wf (sig 0) ∧ Plain (sig 0) ∧ Matches (fun _ _ => true) (sig 0) (sig 7) := by
  simp [sig, Wf, WfE, Plain, PlainE, Matches, MatchesE, Entries.find]

/-- Different matching arguments are never flattened to the same tuple. -/
theorem flatten_injective_partial (t : Tree S) (x y : Tree V) (hd : ∀ s, t ≠ .leaf s) (hw : Wf t) (hp : Plain t)
    (hx : Matches compat t x) (hy : Matches compat t y) (h : flat compat t x = flat compat t y) : x = y := by
  obtain ⟨a, a1, a2⟩ := roundtrip t x hd hw hp hx
  obtain ⟨b, b1, b2⟩ := roundtrip t y hd hw hp hy
  rw [a1, b1] at h
  cases h
  rw [a2] at b2
  exact Option.some.inj b2

example : Matches (fun _ _ => true) (sig 0) (sig 7) ∧ Matches (fun _ _ => true) (sig 0) (sig 8) := by
  simp [sig, Matches, MatchesE]

/-- Whatever flattening accepts can be rebuilt, and the result matches the signature. -/
theorem flattened_is_rebuildable (t : Tree S) (kw : Tree V) (a : Args V) (h : flat compat t kw = some a) :
    ∃ x, rebuild compat t a = some x ∧ Matches compat t x := rebuildable t kw a h

example : (flat (fun (_ _ : Nat) => true) (sig 0) (sig 7)).isSome = true := by
  simp [sig, flat, flatE, pick, Tree.has, Tree.get, Entries.has, Entries.get, Tree.len, Entries.len, Args.carry]

/-- Violation: matching arguments for a singleton inside a singleton are refused. -/
theorem nested_singleton_violation (s : S) (v : V) (hc : compat s v = true) :
    Matches compat (.sing (.sing (.leaf s))) (.sing (.sing (.leaf v))) ∧
      flat compat (.sing (.sing (.leaf s))) (.sing (.sing (.leaf v))) = none := by
  simp [Matches, flat, hc]

/-- Violation: a missing argument silently takes the value of the previous one (lines 188-192). -/
theorem missing_argument_violation (s : S) (v : V) (hc : compat s v = true) :
    flat compat (.node (.cons "a" (.leaf s) (.cons "b" (.leaf s) .nil))) (.node (.cons "a" (.leaf v) .nil)) =
      some (.tup [.val v, .val v]) := by
  simp [flat, flatE, pick, Tree.has, Tree.get, Entries.has, Entries.get, hc]

end Verif.Props.Signature
