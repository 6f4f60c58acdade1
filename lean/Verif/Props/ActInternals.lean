import Verif.Act.AgainLemmas

/-!
# Internal states in `Agent.act` (C117)
-/

namespace Verif.Props.ActInternals

open Verif.Feed Verif.Act

/-- Internal states given in the form of the states: the policy receives them, and its next ones come back in the same form.
Missing: agents with a state called like a mask, internal states given in another form than the states. -/
theorem passed_partial (spec : Spec) (net : Net) (flags : List Bool) (n : Nat) (states masks : Flat) (s : StatesIn) (form : Form)
    (internals : Dict) (ii : InternalsIn) (det : Bool) (hs : Separable spec) (hm : Match n spec.states states) (hg : GivenMasks spec n masks)
    (hgiven : Given n states masks s form) (hi : GivenInternals spec n internals) (hby : GivenBy n internals ii form)
    (hnet : Answers spec net n) :
    ∃ flags' r out, act spec net flags { states := s, internals := ii, independent := true, deterministic := det } = (flags', .ok r) ∧
      r.internals = some out ∧ InternalsAs spec internals r.call.internals ∧
      (spec.internals ≠ [] → ShowsInternals n (net r.call).2 form out) := by
  obtain ⟨r, h1, _, _, h4, _, _, _, h8⟩ := act_independent (flags := flags) det hs hm hg hgiven (.inr ⟨hi, hby⟩) hnet
  have habs : absent ii = false := by cases hby <;> rfl
  rw [habs, if_neg Bool.false_ne_true] at h4 h8
  obtain ⟨out, h9, h10⟩ := h8
  refine ⟨flags, r, out, h1, h9, by rw [h4]; exact chosen_as hs.distinct hi, fun hne => ?_⟩
  rw [if_neg hne] at h10
  exact h10

/-- The internal states returned by a call can be given to the next one in the same form, and the policy receives what it returned. -/
theorem again_partial (spec : Spec) (net : Net) (flags : List Bool) (n : Nat) (states masks states' masks' : Flat) (s s' : StatesIn) (form : Form)
    (internals : Dict) (ii : InternalsIn) (det det' : Bool) (hs : Separable spec) (hm : Match n spec.states states) (hg : GivenMasks spec n masks)
    (hgiven : Given n states masks s form) (hm' : Match n spec.states states') (hg' : GivenMasks spec n masks')
    (hgiven' : Given n states' masks' s' form) (hi : GivenInternals spec n internals) (hby : GivenBy n internals ii form)
    (hnet : Answers spec net n) (hne : spec.internals ≠ []) (hn : n ≠ 0) :
    ∃ r out r', act spec net flags { states := s, internals := ii, independent := true, deterministic := det } = (flags, .ok r) ∧
      r.internals = some out ∧
      act spec net flags { states := s', internals := asArgument out, independent := true, deterministic := det' } = (flags, .ok r') ∧
      ∀ e ∈ spec.internals, ∃ x, valueOf (some e.1) (net r.call).2 = some x ∧ valueOf (some e.1) r'.call.internals = some x := by
  obtain ⟨r, h1, h2, _, _, _, _, _, h8⟩ := act_independent (flags := flags) det hs hm hg hgiven (.inr ⟨hi, hby⟩) hnet
  have habs : absent ii = false := by cases hby <;> rfl
  rw [habs, if_neg Bool.false_ne_true] at h8
  obtain ⟨out, h9, h10⟩ := h8
  rw [if_neg hne] at h10
  have hmi := (hnet r.call (by rw [h2]; exact hm)).2
  have hnf : ∀ p ∈ (net r.call).2, p.1 ≠ none := match_named hmi (by
    intro p hp
    obtain ⟨q, _, hq⟩ := List.mem_map.1 hp
    rw [← hq]
    exact nofun)
  have hnod : (((net r.call).2).map Prod.fst).Nodup := by
    rw [match_names hmi]; exact internalEnts_nodup hs.distinct
  have h1' : form = .single → n = 1 := by
    intro h; subst h; exact given_single hs hm hg hgiven
  have hby' := shown_given hnf hnod hmi hn h1' h10
  obtain ⟨hgi, hvals⟩ := named_given hs.distinct hmi
  obtain ⟨r', g1, _, _, g4, _⟩ := act_independent (flags := flags) det' hs hm' hg' hgiven' (.inr ⟨hgi, hby'⟩) hnet
  have habs' : absent (asArgument out) = false := by cases out <;> rfl
  rw [habs', if_neg Bool.false_ne_true] at g4
  refine ⟨r, out, r', h1, h9, g1, fun e he => ?_⟩
  obtain ⟨x, hx, hv⟩ := hvals e he
  exact ⟨x, valueOf_mem hnod _ hx, by rw [g4]; exact chosen_as hs.distinct hgi e he x hv⟩

/-- The initial internal states are accepted with a single time step. -/
theorem initial_partial (spec : Spec) (net : Net) (flags : List Bool) (states masks : Flat) (s : StatesIn) (det : Bool) (hs : Separable spec)
    (hinit : ∀ e ∈ spec.internals, Proper e.2) (hm : Match 1 spec.states states) (hg : GivenMasks spec 1 masks)
    (hgiven : Given 1 states masks s .single) (hnet : Answers spec net 1) :
    ∃ r, act spec net flags { states := s, internals := .dict spec.internals, independent := true, deterministic := det } = (flags, .ok r) ∧
      ∀ e ∈ spec.internals, ∃ x, valueOf (some e.1) r.call.internals = some x ∧ Represents x [e.2] := by
  let given : Dict := spec.internals.map (fun e => (e.1, (⟨1 :: e.2.shape, e.2.data⟩ : Nd)))
  have hval : ∀ e ∈ spec.internals, valueOf e.1 given = some ⟨1 :: e.2.shape, e.2.data⟩ := by
    intro e he
    exact valueOf_map (fun e : String × Nd => (⟨1 :: e.2.shape, e.2.data⟩ : Nd)) (valueOf_mem hs.distinct e he)
  have hprop : ∀ e ∈ spec.internals, Proper ⟨1 :: e.2.shape, e.2.data⟩ := by
    intro e he
    have h0 : e.2.data.length = count e.2.shape := hinit e he
    show e.2.data.length = count (1 :: e.2.shape)
    rw [count_cons, Nat.one_mul, h0]
  have hgi : GivenInternals spec 1 given := by
    refine ⟨?_, fun e he => ⟨_, hval e he, rfl, hprop e he⟩⟩
    intro p hp
    obtain ⟨q, _, hq⟩ := List.mem_map.1 hp
    rw [← hq]
    rfl
  obtain ⟨r, h1, _, _, h4, _⟩ := act_independent (flags := flags) det hs hm hg hgiven (.inr ⟨hgi, expanded_given hs.distinct hinit⟩) hnet
  rw [show absent (.dict spec.internals) = false from rfl, if_neg Bool.false_ne_true] at h4
  refine ⟨r, h1, fun e he => ⟨_, by rw [h4]; exact chosen_as hs.distinct hgi e he _ (hval e he), ?_⟩⟩
  have := represents_stack e.2.shape [e.2] (by intro r hr; rw [List.mem_singleton.1 hr]) (by intro r hr; rw [List.mem_singleton.1 hr]; exact hinit e he)
  rw [List.flatMap_cons, List.flatMap_nil, List.append_nil] at this
  exact this

/-- Internal states are required in independent mode, if the agent has some. -/
theorem required (spec : Spec) (net : Net) (flags : List Bool) (a : Verif.Act.Args) (h : a.independent = true) (hp : a.parallel = .one 0)
    (hi : a.internals = .absent) (hne : spec.internals ≠ []) : act spec net flags a = (flags, .error .required) := by
  apply act_error
  have : checkArgs spec a = .error .required := by
    unfold checkArgs
    rw [if_pos h, if_neg (fun hn => hn hp), hi, if_pos (by simp [absent, hne])]
  unfold before
  rw [this]
  rfl

/-- Internal states are refused otherwise. -/
theorem refused (spec : Spec) (net : Net) (flags : List Bool) (a : Verif.Act.Args) (h : a.independent = false) (hi : a.internals ≠ .absent) :
    act spec net flags a = (flags, .error .invalid) := by
  apply act_error
  have habs : absent a.internals = false := by
    cases hx : a.internals with
    | absent => exact absurd hx hi
    | list => rfl
    | dict => rfl
    | other => rfl
  have : checkArgs spec a = .error .invalid := by
    unfold checkArgs
    rw [if_neg (by rw [h]; exact Bool.false_ne_true), habs, if_neg Bool.false_ne_true]
  unfold before
  rw [this]
  rfl

/-- No internal states are returned if none were given. -/
theorem none_returned (spec : Spec) (net : Net) (flags flags' : List Bool) (a : Verif.Act.Args) (r : Result) (hi : a.internals = .absent)
    (h : act spec net flags a = (flags', .ok r)) : r.internals = none := by
  unfold act at h
  cases hb : before spec flags a with
  | error e => rw [hb] at h; exact absurd (Prod.mk.inj h).2 nofun
  | ok q =>
    rw [hb] at h
    have h := (Prod.mk.inj h).2
    unfold after at h
    obtain ⟨call, _, h⟩ := bind_eq_ok h
    obtain ⟨out, _, h⟩ := bind_eq_ok h
    unfold returned at h
    obtain ⟨acts, _, h⟩ := bind_eq_ok h
    rw [hi, if_neg (by simp [absent])] at h
    rw [← Except.ok.inj h]

/-- An agent with one state, one action and an internal state. -/
def recurrent : Spec := ⟨[(some "x", ⟨[], fun _ => true⟩)], [(some "a", ⟨⟨[], fun _ => true⟩, none⟩)], [("h", ⟨[2], [0, 0]⟩)]⟩

/-- A policy for two time steps. -/
def two : Net := fun _ => ([(some "a", ⟨[2], [5, 6]⟩)], [(some "h", ⟨[2, 2], [1, 2, 3, 4]⟩)])

/-- Internal states given as a list together with a dictionary of arrays come back as a dictionary of arrays. -/
theorem mixed_violation :
    act recurrent two [true] ⟨.dict [("x", ⟨[2], [7, 8]⟩)], .list [[("h", ⟨[2], [0, 0]⟩)], [("h", ⟨[2], [9, 9]⟩)]], .one 0, true, true⟩ =
    ([true], .ok ⟨.dict [("a", ⟨[2], [5, 6]⟩)], some (.dict [("h", ⟨[2, 2], [1, 2, 3, 4]⟩)]),
      ⟨[(some "x", ⟨[2], [7, 8]⟩)], [(some "h", ⟨[2, 2], [0, 0, 9, 9]⟩)], [], [], some true⟩⟩) := by decide +kernel

/-- Internal states with unknown names are ignored silently. -/
theorem surplus_violation :
    act recurrent two [true] ⟨.dict [("x", ⟨[2], [7, 8]⟩)], .dict [("h", ⟨[2, 2], [0, 0, 9, 9]⟩), ("unknown", ⟨[2], [1, 1]⟩)], .one 0, true, true⟩ =
    ([true], .ok ⟨.dict [("a", ⟨[2], [5, 6]⟩)], some (.dict [("h", ⟨[2, 2], [1, 2, 3, 4]⟩)]),
      ⟨[(some "x", ⟨[2], [7, 8]⟩)], [(some "h", ⟨[2, 2], [0, 0, 9, 9]⟩)], [], [], some true⟩⟩) := by decide +kernel

example : GivenInternals recurrent 2 [("h", ⟨[2, 2], [0, 0, 9, 9]⟩)] := by
  refine ⟨?_, ?_⟩
  · intro p hp; rw [List.mem_singleton.1 hp]; rfl
  · intro e he; rw [List.mem_singleton.1 he]; exact ⟨_, rfl, rfl, rfl⟩

example : Answers recurrent two 2 := fun _ _ => ⟨.cons rfl rfl (fun _ _ => rfl) .nil, .cons rfl rfl (fun _ _ => rfl) .nil⟩

example : act recurrent two [true] ⟨.list [("x", ⟨[], [7]⟩)] [some [("x", ⟨[], [8]⟩)]], .list [[("h", ⟨[2], [0, 0]⟩)], [("h", ⟨[2], [9, 9]⟩)]], .one 0, true, true⟩ =
    ([true], .ok ⟨.dicts [[("a", ⟨[], [5]⟩)], [("a", ⟨[], [6]⟩)]], some (.dicts [[("h", ⟨[2], [1, 2]⟩)], [("h", ⟨[2], [3, 4]⟩)]]),
      ⟨[(some "x", ⟨[2], [7, 8]⟩)], [(some "h", ⟨[2, 2], [0, 0, 9, 9]⟩)], [], [], some true⟩⟩) := by decide +kernel

end Verif.Props.ActInternals
