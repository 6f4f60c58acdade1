import Verif.Act.OutputLemmas

/-!
# What `Agent.act` checks: outputs of the policy, masks, internal states (C116, C117) and empty lists of indices (C118)
-/

namespace Verif.Props.ActOutput

open Verif.Feed Verif.Act

/-- Whatever the policy answers: every action returned by an accepted call is a value of its answer, or the row which belongs to the time step
and exists; and the answer contains no other actions. -/
theorem returned_rows (spec : Spec) (net : Net) (flags flags' : List Bool) (a : Verif.Act.Args) (r : Result)
    (h : act spec net flags a = (flags', .ok r)) :
    OfPolicy (net r.call).1 r.actions ∧ ∀ p ∈ (net r.call).1, ∃ e ∈ actionSpec spec, e.1 = p.1 := by
  obtain ⟨q, _, ha⟩ := act_inv h
  obtain ⟨o, _, ho, h1, _⟩ := after_outputs ha
  exact ⟨h1, (outputs_inv ho).2.2.1⟩

/-- Masks reach the policy with the specified shapes only. -/
theorem masks_conform (spec : Spec) (net : Net) (flags flags' : List Bool) (a : Verif.Act.Args) (r : Result)
    (h : act spec net flags a = (flags', .ok r)) : Conforms (maskSpec spec) r.call.masks := by
  obtain ⟨q, _, ha⟩ := act_inv h
  obtain ⟨o, ht, _⟩ := after_outputs ha
  exact (tensors_masks ht).1

/-- So do internal states; those which come back are values of the policy's answer or rows of them, and the answer contains all internal states of
the agent with the specified shapes and no others. -/
theorem internals_conform (spec : Spec) (net : Net) (flags flags' : List Bool) (a : Verif.Act.Args) (r : Result)
    (h : act spec net flags a = (flags', .ok r)) (hi : a.independent = true) :
    (a.internals ≠ .absent → Conforms (internalSpec spec) r.call.internals) ∧
    (∀ out, r.internals = some out → StatesOf (net r.call).2 out) ∧
    (spec.internals ≠ [] → (∀ e ∈ internalSpec spec, ∃ x, valueOf e.1 (net r.call).2 = some x ∧ x.shape.tail = e.2.shape) ∧
      ∀ p ∈ (net r.call).2, ∃ e ∈ internalSpec spec, e.1 = p.1) := by
  obtain ⟨q, _, ha⟩ := act_inv h
  obtain ⟨o, ht, ho, _, h2⟩ := after_outputs ha
  refine ⟨fun hab => (tensors_masks ht).2 hi ?_, h2, (outputs_inv ho).2.2.2 hi⟩
  cases hi' : a.internals with
  | absent => exact absurd hi' hab
  | list l => rfl
  | dict d => rfl
  | other => rfl

/-- An empty list as internal states, or something else than dictionaries, is rejected. -/
theorem internals_other (spec : Spec) (net : Net) (flags : List Bool) (a : Verif.Act.Args) (hi : a.independent = true)
    (h : a.internals = .other ∨ a.internals = .list []) : ∃ e, act spec net flags a = (flags, .error e) := by
  apply independent_error hi
  intro inp _
  rcases h with h | h <;> rw [h] <;> exact ⟨_, rfl⟩

/-- A dictionary of internal states does not go with a list of states. -/
theorem internals_mixed (spec : Spec) (net : Net) (flags : List Bool) (n : Nat) (states masks : Flat) (s : StatesIn) (d : Dict) (det : Bool)
    (hs : Separable spec) (hm : Match n spec.states states) (hg : GivenMasks spec n masks) (hgiven : Given n states masks s .rows) :
    ∃ e, act spec net flags { states := s, internals := .dict d, independent := true, deterministic := det } = (flags, .error e) := by
  apply independent_error rfl
  intro inp hp
  obtain ⟨f, st, hproc, _⟩ := processed hs hm hg hgiven
  have := Except.ok.inj (hproc.symm.trans hp)
  rw [← this]
  exact ⟨_, rfl⟩

/-- Internal states of another number of time steps than the states are rejected. -/
theorem internals_number (spec : Spec) (net : Net) (flags : List Bool) (n : Nat) (states masks : Flat) (s : StatesIn) (form : Form)
    (ii : InternalsIn) (det : Bool) (hs : Separable spec) (hm : Match n spec.states states) (hg : GivenMasks spec n masks)
    (hgiven : Given n states masks s form)
    (h : (form = .columns ∧ ∃ d, ii = .dict d ∧ ∃ p ∈ d, p.2.shape.head? ≠ some n) ∨
      (form ≠ .single ∧ ∃ d ds, ii = .list (d :: ds) ∧ d ≠ [] ∧ ds.length + 1 ≠ n)) :
    ∃ e, act spec net flags { states := s, internals := ii, independent := true, deterministic := det } = (flags, .error e) := by
  apply independent_error rfl
  intro inp hp
  obtain ⟨f, st, hproc, _⟩ := processed hs hm hg hgiven
  have := Except.ok.inj (hproc.symm.trans hp)
  subst this
  dsimp only
  have hrej : ∀ g, internalsForm (form.iter == some true) ii = .ok g → form.batched = true → (∃ p ∈ g, p.2.shape.head? ≠ some n) →
      ∃ e, internalsArg ⟨f, form.batched, n, form.iter⟩ ii = .error e := by
    rintro g hgf hb ⟨p, hp, hne⟩
    unfold internalsArg
    rw [hgf, bind_ok]
    dsimp only
    have he : expandUnless form.batched g = g := by unfold expandUnless; rw [hb, if_pos rfl]
    rw [he]
    cases hc : checkRows n g with
    | error e => exact ⟨e, rfl⟩
    | ok u => exact absurd (checkRows_all n g hc p hp) hne
  rcases h with ⟨hf, d, hd, p, hpd, hne⟩ | ⟨hf, d, ds, hd, hne, hlen⟩
  · subst hf hd
    exact hrej (keyed d) rfl rfl ⟨(some p.1, p.2), List.mem_map.2 ⟨p, hpd, rfl⟩, hne⟩
  · subst hd
    cases hst : stackDicts d ds with
    | error e =>
      refine ⟨e, ?_⟩
      unfold internalsArg internalsForm
      dsimp only
      rw [hst]
      rfl
    | ok g =>
      have hb : form.batched = true := by cases form <;> first | rfl | exact absurd rfl hf
      apply hrej g hst hb
      cases d with
      | nil => exact absurd rfl hne
      | cons e r =>
        obtain ⟨h1, h2⟩ := mapM_get hst
        have hl : 0 < g.length := by rw [h1]; exact Nat.succ_pos _
        have h0 := h2 0 (Nat.succ_pos _) hl
        refine ⟨g[0], List.getElem_mem hl, ?_⟩
        obtain ⟨ys, hys, h0⟩ := bind_eq_ok h0
        obtain ⟨x, hx, h0⟩ := bind_eq_ok h0
        rw [← Except.ok.inj h0]
        have hyl := (mapM_get hys).1
        unfold stack at hx
        dsimp only at hx
        split at hx
        · rw [← Except.ok.inj hx, hyl]
          exact fun hh => hlen (Option.some.inj hh)
        · exact absurd hx nofun

/-- An empty list of indices is rejected and nothing changes. -/
theorem empty_rejected (spec : Spec) (net : Net) (flags : List Bool) (a : Verif.Act.Args) (hi : a.independent = false) (hp : a.parallel = .many []) :
    ∃ e, act spec net flags a = (flags, .error e) := by
  have : ∃ e, before spec flags a = .error e := by
    unfold before
    cases hc : checkArgs spec a with
    | error e => exact ⟨e, rfl⟩
    | ok u =>
      rw [bind_ok]
      cases hpr : processStates spec.states a.states with
      | error e => exact ⟨e, rfl⟩
      | ok inp =>
        rw [bind_ok]
        unfold modeArgs
        rw [if_neg (by rw [hi]; exact Bool.false_ne_true)]
        cases hpar : parallelArg inp a.parallel with
        | error e => exact ⟨e, rfl⟩
        | ok par =>
          rw [bind_ok]
          have : par.indices = [] := by
            rw [hp] at hpar
            unfold parallelArg at hpar
            dsimp only at hpar
            split at hpar
            · split at hpar
              · rw [← Except.ok.inj hpar]; rfl
              · exact absurd hpar nofun
            · split at hpar
              · rw [← Except.ok.inj hpar]; rfl
              · exact absurd hpar nofun
          rw [this]
          exact ⟨_, rfl⟩
  obtain ⟨e, he⟩ := this
  exact ⟨e, act_error he⟩

/-- An agent with an unnamed state, an unnamed action and an internal state. -/
def recurrent : Spec := ⟨[(none, ⟨[], fun _ => true⟩)], [(none, ⟨⟨[], fun v => v = 0 || v = 1⟩, none⟩)], [("h", ⟨[1], [0]⟩)]⟩

/-- A policy which answers two time steps. -/
def pair : Net := fun _ => ([(none, ⟨[2], [1, 0]⟩)], [(some "h", ⟨[2, 1], [5, 6]⟩)])

/-- Two time steps in a list: actions and internal states are the rows of the answer. -/
example : (act recurrent pair [true] { states := .array ⟨[2], [7, 8]⟩, internals := .list [[("h", ⟨[1], [3]⟩)], [("h", ⟨[1], [4]⟩)]], independent := true }).2 =
    .ok ⟨.values [⟨[], [1]⟩, ⟨[], [0]⟩], some (.dicts [[("h", ⟨[1], [5]⟩)], [("h", ⟨[1], [6]⟩)]]),
      ⟨[(none, ⟨[2], [7, 8]⟩)], [(some "h", ⟨[2, 1], [3, 4]⟩)], [], [], some true⟩⟩ := by decide +kernel

/-- Three time steps: the answer has no third row. -/
example : (act recurrent pair [true] { states := .array ⟨[3], [7, 8, 9]⟩, independent := true, internals := .list (List.replicate 3 [("h", ⟨[1], [3]⟩)]) }).2 =
    .error .index := by decide +kernel

/-- One internal state for two time steps. -/
example : (act recurrent pair [true] { states := .array ⟨[2], [7, 8]⟩, internals := .list [[("h", ⟨[1], [3]⟩)]], independent := true }).2 =
    .error .value := by decide +kernel

end Verif.Props.ActOutput
