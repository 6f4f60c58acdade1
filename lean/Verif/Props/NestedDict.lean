import Verif.Utils.NestedLemmas

/-!
# Property C21: nested dictionaries as maps from paths to values
-/

namespace Verif.Props.NestedDict

open Verif.Utils.Nested

variable {V W : Type}

private def leafs : List (String × Nat) → Entries Nat
  | [] => .nil
  | (k, v) :: r => .cons k (.leaf v) (leafs r)

/-- `{a: {x: 1}, b: 2}` -/
private def sample : Tree Nat := .node (.cons "a" (.node (leafs [("x", 1)])) (leafs [("b", 2)]))

/-- Reading a path just stored yields exactly what was stored. -/
theorem stored_is_read (ow : Bool) (t : Tree V) (p : List String) (u t' : Tree V) (h : t.set ow p u = some t') :
    t'.get p = some u := get_set ow t p u t' h

example : (sample.set false ["a", "y"] (.leaf 3)).isSome = true := by decide

/-- After any history, from a dictionary with unique names, the stored values are those of the path map to which the
accepted operations were applied; in particular paths not below a changed path keep their value. -/
theorem history_refines_map (ow : Bool) (ops : List (Op V)) (hops : ∀ o ∈ ops, o.Ok) (t : Tree V) (hw : Wf t) :
    Wf (t.run ow ops) ∧ ∀ q, look (t.run ow ops) q = (accepted ow t ops).foldl specStep (look t) q := by
  induction ops generalizing t with
  | nil => exact ⟨hw, fun _ => rfl⟩
  | cons o ops ih =>
    have ho := hops o (by simp)
    have hr : ∀ o ∈ ops, o.Ok := fun o h => hops o (by simp [h])
    cases hs : t.step ow o with
    | none =>
      have := ih hr t hw
      simpa [Tree.run, accepted, hs] using this
    | some t' =>
      have hboth : Wf t' ∧ ∀ q, look t' q = specStep (look t) o q := by
        cases o with
        | set p u => exact ⟨wf_set ow t p u t' hw ho hs, look_set ow t p u t' hs⟩
        | pop p => exact ⟨wf_pop t p t' hw hs, look_pop t hw p t' hs⟩
      have := ih hr t' hboth.1
      rw [funext hboth.2] at this
      simpa [Tree.run, accepted, hs] using this

example : look (sample.run false [.set ["a", "y"] (.leaf 3), .pop ["b"]]) ["a", "y"] = some 3 ∧
    look (sample.run false [.set ["a", "y"] (.leaf 3), .pop ["b"]]) ["b"] = none ∧
    look (sample.run false [.set ["a", "y"] (.leaf 3), .pop ["b"]]) ["a", "x"] = some 1 := by decide

/-- Membership holds exactly for the paths that can be read. -/
theorem contains_iff_readable (t : Tree V) (p : List String) : t.has p = some true ↔ (t.get p).isSome = true :=
  has_iff t p

example : sample.has ["a", "x"] = some true ∧ sample.has ["a", "z"] = some false := by decide

/-- Iteration lists exactly the stored values with their paths, length counts them, `values` agrees. -/
theorem iteration_agrees (t : Tree V) (hw : Wf t) :
    (∀ p v, (p, v) ∈ t.items ↔ look t p = some v) ∧ t.len = t.items.length ∧ t.vals = t.items.map Prod.snd :=
  ⟨mem_items t hw, len_items t, vals_items t⟩

example : sample.items = [(["a", "x"], 1), (["b"], 2)] := by decide

/-- Mapping a function keeps paths and order. -/
theorem fmap_keeps_paths (f : V → W) (t : Tree V) : (t.fmap f).items = t.items.map fun x => (x.1, f x.2) :=
  fmap_items f t

example : (sample.fmap (· + 1)).items = [(["a", "x"], 2), (["b"], 3)] := by decide

/-- Iteration order is insertion order for plain (one-segment) keys: a new key comes last.
Missing: keys with several segments, for which it fails (`insertion_order_violation`). -/
theorem insertion_order_partial (ow : Bool) (es : Entries V) (k : String) (u : Tree V) (t' : Tree V)
    (hn : es.find k = none) (h : (Tree.node es).set ow [k] u = some t') :
    t'.items = (Tree.node es).items ++ u.items.map fun x => (k :: x.1, x.2) := by
  simp only [Tree.set] at h
  split at h
  · simp at h
  · rw [Option.map_eq_some_iff] at h
    obtain ⟨es', h', rfl⟩ := h
    exact items_setE_new ow es k u es' hn h'

example : (leafs [("b", 2)]).find "c" = none ∧ ((Tree.node (leafs [("b", 2)])).set false ["c"] (.leaf 3)).isSome = true :=
  by decide

/-- Violation: storing `a/x`, `b`, `a/y` in this order iterates as `a/x`, `a/y`, `b`. -/
theorem insertion_order_violation :
    ((Tree.node .nil : Tree Nat).run false
      [.set ["a", "x"] (.leaf 1), .set ["b"] (.leaf 2), .set ["a", "y"] (.leaf 3)]).items =
      [(["a", "x"], 1), (["a", "y"], 3), (["b"], 2)] := by decide

/-- Without `overwrite`, a named path that can be read is never overwritten.
Missing: the singleton key, for which it fails (`singleton_overwrite_violation`). -/
theorem no_overwrite_partial (t : Tree V) (p : List String) (u : Tree V) (hp : p ≠ []) (h : (t.get p).isSome = true) :
    t.set false p u = none := set_present t p u hp h

example : (sample.get ["a", "x"]).isSome = true := by decide

/-- Violation: the singleton entry is overwritten although `overwrite` is off (line 266 has no check). -/
theorem singleton_overwrite_violation (v w : V) :
    (Tree.sing (.leaf v)).set false [] (.leaf w) = some (.sing (.leaf w)) := by simp [Tree.set]

end Verif.Props.NestedDict
