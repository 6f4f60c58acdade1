import Verif.Act.InvLemmas

/-!
# Forms of states and actions in `Agent.act` (C116)
-/

namespace Verif.Props.Act

open Verif.Feed Verif.Act

/-- Independent calls: the policy receives exactly the states and masks, whatever their form, and its actions come back in the form of the states.
Missing: agents with a state called like a mask. -/
theorem independent_partial (spec : Spec) (net : Net) (flags : List Bool) (n : Nat) (states masks : Flat) (s : StatesIn) (form : Form)
    (internals : Dict) (ii : InternalsIn) (det : Bool) (hs : Separable spec) (hm : Match n spec.states states) (hg : GivenMasks spec n masks)
    (hgiven : Given n states masks s form) (hi : Supplied spec n internals ii form) (hnet : Answers spec net n) :
    ∃ flags' r, act spec net flags { states := s, internals := ii, independent := true, deterministic := det } = (flags', .ok r) ∧
      r.call.states = states ∧ MasksAs spec n masks r.call.masks ∧ r.call.deterministic = some det ∧
      ShowsActions n (net r.call).1 form r.actions := by
  obtain ⟨r, h1, h2, h3, _, _, h6, h7, _⟩ := act_independent (flags := flags) det hs hm hg hgiven hi hnet
  exact ⟨flags, r, h1, h2, by rw [h3]; exact masks_as hs hg, h6, h7⟩

/-- The same for calls which are part of training, if the interactions are free. -/
theorem training_partial (spec : Spec) (net : Net) (flags : List Bool) (n : Nat) (states masks : Flat) (s : StatesIn) (form : Form)
    (l : List Int) (p : ParallelIn) (det : Bool) (hs : Separable spec) (hm : Match n spec.states states) (hg : GivenMasks spec n masks)
    (hgiven : Given n states masks s form) (hp : Indices n l p form) (hfree : Free flags l) (hnet : AnswersActions spec net n) :
    ∃ flags' r, act spec net flags { states := s, parallel := p, independent := false, deterministic := det } = (flags', .ok r) ∧
      r.call.states = states ∧ MasksAs spec n masks r.call.masks ∧ r.call.parallel = l ∧ r.call.deterministic = none ∧
      ShowsActions n (net r.call).1 form r.actions := by
  obtain ⟨r, h1, h2, h3, _, h5, h6, _, h8⟩ := act_training (flags := flags) det hs hm hg hgiven hp hfree hnet
  exact ⟨_, r, h1, h2, by rw [h3]; exact masks_as hs hg, h5, h6, h8⟩

/-- Whatever the policy receives conforms to the specification, and its actions are only returned if they do. -/
theorem conform (spec : Spec) (net : Net) (flags flags' : List Bool) (a : Verif.Act.Args) (r : Result)
    (h : act spec net flags a = (flags', .ok r)) :
    Conforms spec.states r.call.states ∧ (∀ e ∈ actionSpec spec, ∃ x, valueOf e.1 (net r.call).1 = some x ∧ x.shape.tail = e.2.shape ∧ ∀ v ∈ x.data, e.2.valid v = true) ∧
      (a.independent = false → ∀ p ∈ r.call.parallel, 0 ≤ p ∧ p < flags.length) := by
  obtain ⟨q, _, ha⟩ := act_inv h
  obtain ⟨h1, h2, h3⟩ := after_inv ha
  exact ⟨h1, h2, h3⟩

/-- An agent with one state and a masked action of two choices. -/
def masked : Spec := ⟨[(some "x", ⟨[], fun _ => true⟩)], [(some "a", ⟨⟨[], fun v => v = 0 || v = 1⟩, some 2⟩)], []⟩

/-- An agent whose state is called like the mask of its action. -/
def clashing : Spec := ⟨[(some "a_mask", ⟨[2], fun _ => true⟩)], [(some "a", ⟨⟨[], fun v => v = 0 || v = 1⟩, some 2⟩)], []⟩

/-- A policy which takes the first choice, for agents without internal states. -/
def first (n : Nat) : Net := fun _ => ([(some "a", ⟨[n], List.replicate n 0⟩)], [])

/-- No state is accepted if it is called like a mask: it is taken for the mask. -/
theorem clash_violation : (act clashing (first 1) [true] { states := .dict [("a_mask", ⟨[2], [1, 1]⟩)], independent := true }).2 = .error .keys := by
  decide +kernel

example : Separable masked := by
  refine ⟨.inr ⟨by decide, ?_, by decide⟩, .inr ⟨by decide, ?_, by decide⟩, ?_, by decide⟩
  · intro p hp; rw [List.mem_singleton.1 hp]; exact nofun
  · intro p hp; rw [List.mem_singleton.1 hp]; exact nofun
  · intro s hs e he _
    rw [List.mem_singleton.1 hs, List.mem_singleton.1 he]
    decide +kernel

example : Match 2 masked.states [(some "x", ⟨[2], [3, 4]⟩)] := .cons rfl rfl (fun _ _ => rfl) .nil

example : GivenMasks masked 2 [(some "a", ⟨[2, 2], [1, 0, 1, 1]⟩)] := by
  refine ⟨by decide, ?_⟩
  intro p hp
  rw [List.mem_singleton.1 hp]
  exact ⟨_, 2, List.mem_cons_self, rfl, rfl, rfl⟩

example : Given 2 [(some "x", ⟨[2], [3, 4]⟩)] [(some "a", ⟨[2, 2], [1, 0, 1, 1]⟩)]
    (.dict [("x", ⟨[2], [3, 4]⟩), ("a_mask", ⟨[2, 2], [1, 0, 1, 1]⟩)]) .columns := .columns (by decide)

example : Answers masked (first 2) 2 := by
  intro c _
  refine ⟨.cons rfl rfl ?_ .nil, .nil⟩
  intro v hv
  have : v = 0 := List.eq_of_mem_replicate hv
  rw [this]
  rfl

example : act masked (first 2) [true, true] ⟨.list [("x", ⟨[], [3]⟩), ("a_mask", ⟨[2], [1, 0]⟩)] [some [("x", ⟨[], [4]⟩), ("a_mask", ⟨[2], [1, 1]⟩)]],
      .absent, .many [1, 0], false, true⟩ =
    ([false, false], .ok ⟨.dicts [[("a", ⟨[], [0]⟩)], [("a", ⟨[], [0]⟩)]], none,
      ⟨[(some "x", ⟨[2], [3, 4]⟩)], [], [(some "a", ⟨[2, 2], [1, 0, 1, 1]⟩)], [1, 0], none⟩⟩) := by decide +kernel

end Verif.Props.Act
