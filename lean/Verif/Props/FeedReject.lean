import Verif.Feed.AcceptLemmas

/-!
# Which forms of states and experience are accepted (C113, C114)
-/

namespace Verif.Props.FeedReject

open Verif.Feed

/-- An array is accepted exactly for a single unnamed state, as one time step or as a batch. -/
theorem array_accepted (spec : List (Key × Ent)) (x : Nd) :
    (∃ inp, processStates spec (.array x) = .ok inp) ↔
      ∃ e, spec = [(none, e)] ∧ (x.shape = e.shape ∨ ∃ n, x.shape = n :: e.shape) := by
  constructor
  · rintro ⟨inp, h⟩
    have hf := processStates_form h
    unfold processForm at hf
    dsimp only at hf
    split at hf
    · rename_i e
      refine ⟨e, rfl, ?_⟩
      rcases processArray_inv hf with ⟨h1, _⟩ | ⟨n, h1, _⟩
      · exact .inl h1
      · exact .inr ⟨n, h1⟩
    · exact absurd hf nofun
  · rintro ⟨e, he, h⟩
    subst he
    show ∃ inp, (do let inp ← processArray e x; checkRows inp.num inp.states; pure inp) = .ok inp
    rcases h with h | ⟨n, h⟩
    · rw [processArray, if_pos h]
      exact ⟨_, rfl⟩
    · exact ⟨_, (Verif.Props.Forms.array_form e x).1 n h⟩

/-- A dictionary is accepted exactly if the first state is found there as one time step, or as a batch of which every array has the rows. -/
theorem dict_accepted (spec : List (Key × Ent)) (d : Dict) :
    (∃ inp, processStates spec (.dict d) = .ok inp) ↔
      ∃ name e x, FirstState spec name e ∧ valueOf name d = some x ∧
        (x.shape = e.shape ∨ ∃ n, n ≠ 0 ∧ x.shape = n :: e.shape ∧ ∀ p ∈ d, p.2.shape.head? = some n) := by
  constructor
  · rintro ⟨inp, h⟩
    have hcons := Verif.Props.Forms.consistent _ _ _ h
    have hf := processStates_form h
    cases spec with
    | nil => exact absurd hf nofun
    | cons ke r =>
      obtain ⟨k, e⟩ := ke
      obtain ⟨x, hx, hc⟩ := processDict_inv (show processDict (k.getD "state") e d = .ok inp from hf)
      refine ⟨_, e, x, ⟨k, r, rfl, rfl⟩, hx, ?_⟩
      rcases hc with ⟨h1, _⟩ | ⟨n, hn, h1, h2⟩
      · exact .inl h1
      · refine .inr ⟨n, hn, h1, fun p hp => ?_⟩
        rw [h2] at hcons
        exact hcons (some p.1, p.2) (List.mem_map.2 ⟨p, hp, rfl⟩)
  · rintro ⟨name, e, x, hspec, hx, h⟩
    rcases h with h | ⟨n, hn, h, hall⟩
    · obtain ⟨k, r, hk, hname⟩ := hspec
      have hf : processForm spec (.dict d) = processDict name e d := by
        subst hk hname
        rfl
      unfold processStates
      rw [hf, processDict, lookup_eq, hx]
      dsimp only
      rw [if_pos h, bind_ok]
      dsimp only
      rw [checkRows_ok]
      · exact ⟨_, rfl⟩
      · intro p hp
        obtain ⟨a, ha, hap⟩ := List.mem_map.1 hp
        obtain ⟨b, _, hb⟩ := List.mem_map.1 ha
        rw [← hap, ← hb]
        rfl
    · exact ⟨_, Verif.Props.Forms.dict_form spec d name e x n hspec hx h hn hall⟩

/-- A list is accepted exactly if it consists of dictionaries with all names of the first, with arrays of the same shapes. -/
theorem list_accepted (spec : List (Key × Ent)) (d : Dict) (rest : List (Option Dict)) :
    (∃ inp, processStates spec (.list d rest) = .ok inp) ↔
      ∃ ds : List Dict, rest = ds.map some ∧ ∀ e ∈ d, ∀ d' ∈ ds, ∃ y, valueOf e.1 d' = some y ∧ y.shape = e.2.shape := by
  constructor
  · rintro ⟨inp, h⟩
    have hf : processList d rest = .ok inp := processStates_form h
    unfold processList at hf
    obtain ⟨ds, hds, hf⟩ := bind_eq_ok hf
    obtain ⟨st, hst, _⟩ := bind_eq_ok hf
    exact ⟨ds, allDicts_inv hds, stackDicts_inv hst⟩
  · rintro ⟨ds, hds, h⟩
    have hall : ∀ l : List Dict, allDicts (l.map some) = .ok l := by
      intro l
      induction l with
      | nil => rfl
      | cons a r ih => rw [List.map_cons, allDicts, ih]; rfl
    have hone : ∀ e ∈ d, ∃ b : Key × Nd, (do
        let ys ← ds.mapM (fun d => found .key (lookup e.1 d))
        let x ← stack (e.2 :: ys)
        pure (some e.1, x) : Except Err (Key × Nd)) = .ok b ∧ b.2.shape.head? = some (ds.length + 1) := by
      intro e he
      obtain ⟨ys, h1, h2, h3⟩ := mapM_found (h e he)
      refine ⟨(some e.1, ⟨(ys.length + 1) :: e.2.shape, (e.2 :: ys).flatMap Nd.data⟩), ?_, ?_⟩
      · rw [h1, bind_ok, stack_ok h2]
        rfl
      · dsimp only
        rw [h3]
        rfl
    obtain ⟨st, hst⟩ := mapM_accept (fun e he => let ⟨b, hb, _⟩ := hone e he; ⟨b, hb⟩)
    have hrows : ∀ b ∈ st, b.2.shape.head? = some (ds.length + 1) := by
      intro b hb
      obtain ⟨e, he, hbe⟩ := mapM_mem hst b hb
      obtain ⟨b', hb', hr⟩ := hone e he
      rw [hb'] at hbe
      rw [← Except.ok.inj hbe]
      exact hr
    refine ⟨⟨st, true, ds.length + 1, some true⟩, ?_⟩
    unfold processStates
    show (do let inp ← processList d rest; checkRows inp.num inp.states; pure inp) = _
    unfold processList stackDicts
    rw [hds, hall, bind_ok, hst]
    show (do checkRows (ds.length + 1) st; pure (⟨st, true, ds.length + 1, some true⟩ : Input)) = _
    rw [checkRows_ok _ _ hrows]
    rfl

/-- Nothing else is accepted as states. -/
theorem empty_rejected (spec : List (Key × Ent)) : ∃ e, processStates spec .empty = .error e := by
  unfold processStates processForm
  dsimp only
  split <;> exact ⟨_, rfl⟩

/-- Numbers instead of lists are taken for a single time step, and only for one. -/
theorem numbers (spec : Spec) (mid : Bool) (a : Args) (h : (experience spec mid a).1 ≠ []) :
    ((∃ v, a.terminal = .one v) ↔ GivenSingly spec.states a.states) ∧ ((∃ v, a.reward = .one v) ↔ GivenSingly spec.states a.states) := by
  rcases experience_fed (spec := spec) (mid := mid) (a := a) with h0 | ⟨p, hp, _⟩
  · exact absurd h0 h
  · obtain ⟨_, inp, hinp, hter, hrew, _⟩ := prepare_inv hp
    have hs := (processStates_inv hinp).1
    constructor
    · rw [← hs]
      cases hb : inp.batched with
      | true =>
        rw [hb] at hter
        refine ⟨fun ⟨v, hv⟩ => ?_, nofun⟩
        rw [hv] at hter
        exact absurd hter nofun
      | false =>
        rw [hb] at hter
        refine ⟨fun _ => rfl, fun _ => ?_⟩
        cases ht : a.terminal with
        | one v => exact ⟨v, rfl⟩
        | many l => rw [ht] at hter; exact absurd hter nofun
    · rw [← hs]
      cases hb : inp.batched with
      | true =>
        rw [hb] at hrew
        refine ⟨fun ⟨v, hv⟩ => ?_, nofun⟩
        rw [hv] at hrew
        exact absurd hrew nofun
      | false =>
        rw [hb] at hrew
        refine ⟨fun _ => rfl, fun _ => ?_⟩
        cases ht : a.reward with
        | one v => exact ⟨v, rfl⟩
        | many l => rw [ht] at hrew; exact absurd hrew nofun

/-- No experience at all is rejected. -/
theorem nothing_rejected (spec : Spec) (mid : Bool) (a : Args) (h : a.terminal = .many []) : ∃ e, experience spec mid a = ([], some e) := by
  unfold experience
  cases hp : prepare spec mid a with
  | error e => exact ⟨e, rfl⟩
  | ok p =>
    obtain ⟨_, inp, _, hter, _, _, _, _, hne, _⟩ := prepare_inv hp
    rw [h] at hter
    cases hb : inp.batched with
    | false => rw [hb] at hter; exact absurd hter nofun
    | true =>
      rw [hb] at hter
      exact absurd (Except.ok.inj hter).symm hne

/-- Lists of actions go with lists of states only: with states by name, or for a single time step, they are rejected. -/
theorem lists_rejected (spec : Spec) (mid : Bool) (a : Args) (hs : (∃ d, a.states = .dict d) ∨ GivenSingly spec.states a.states)
    (ha : (∃ x, a.actions = .list x) ∨ (∃ d ds, a.actions = .dicts d ds) ∨ a.actions = .empty) :
    ∃ e, experience spec mid a = ([], some e) := by
  unfold experience
  cases hp : prepare spec mid a with
  | error e => exact ⟨e, rfl⟩
  | ok p =>
    obtain ⟨_, inp, hinp, _, _, _, _, _, _, _, act, hact, _⟩ := prepare_inv hp
    obtain ⟨h1, h2, h3⟩ := processStates_inv hinp
    have hit : (inp.iter == some true) = false := by
      rcases hs with ⟨d, hd⟩ | hs
      · exact beq_eq_false_iff_ne.2 (h3 d hd)
      · rw [h2 (h1.2 hs)]; rfl
    rw [hit] at hact
    rcases ha with ⟨x, ha⟩ | ⟨d, ds, ha⟩ | ha
    · rw [ha] at hact; exact absurd hact nofun
    · rw [ha] at hact; exact absurd hact nofun
    · rw [ha] at hact; exact absurd hact nofun

/-- A name among the states which is neither that of a state nor that of a mask is rejected. -/
theorem unknown_rejected (spec : Spec) (mid : Bool) (a : Args) (d : Dict) (k : String) (hst : a.states = .dict d) (hk : k ∈ d.map Prod.fst)
    (hs : ∀ s ∈ spec.states, s.1.getD "state" ≠ k) (ha : ∀ e ∈ spec.actions, e.2.mask ≠ none → maskKey e.1 ≠ k) :
    ∃ e, experience spec mid a = ([], some e) := by
  unfold experience
  cases hp : prepare spec mid a with
  | error e => exact ⟨e, rfl⟩
  | ok p =>
    dsimp only
    obtain ⟨inp, hinp, hdr⟩ := prepare_states hp
    obtain ⟨_, inp', hinp', _, _, hlt, _, _, hne, hlast, _⟩ := prepare_inv hp
    have hmem : ∃ x, (some k, x) ∈ inp.states := by
      obtain ⟨q, hq, hqk⟩ := List.mem_map.1 hk
      rw [hst] at hinp
      have hf := processStates_form hinp
      cases hsp : spec.states with
      | nil => rw [hsp] at hf; exact absurd hf nofun
      | cons ke r =>
        rw [hsp] at hf
        obtain ⟨x, hx, hc⟩ := processDict_inv (show processDict (ke.1.getD "state") ke.2 d = .ok inp from hf)
        rcases hc with ⟨_, h2⟩ | ⟨n, _, _, h2⟩
        · refine ⟨expand q.2, ?_⟩
          rw [h2]
          exact List.mem_map.2 ⟨(q.1, expand q.2), List.mem_map.2 ⟨q, hq, rfl⟩, by rw [← hqk]⟩
        · refine ⟨q.2, ?_⟩
          rw [h2]
          exact List.mem_map.2 ⟨q, hq, by rw [← hqk]⟩
    obtain ⟨x, hx⟩ := hmem
    have hx := popMasks_keeps inp.num spec.actions inp.states (fun e he hm h => ha e he hm (Option.some.inj h).symm) hx
    obtain ⟨hx, hnot⟩ := dropName_unknown hdr hx hs
    have hlast' : ∀ v, p.terminal.getLast? = some v → v ≠ 0 := fun v hv h0 => hlast (by rw [hv, h0])
    cases hb : bounds 0 0 p.terminal with
    | nil =>
      have := bounds_pieces 1 p.terminal p.terminal 0 0 (Nat.le_refl 0) (by rw [Nat.zero_add, Nat.mul_one]) hlast' (fun _ => rfl)
      rw [hb, List.flatMap_nil, Nat.zero_mul, List.drop_zero] at this
      exact absurd this.symm hne
    | cons q r =>
      have hc : convert spec (cut q.1 q.2 p) = .error .keys := by
        unfold convert
        have hin : (some k, slice q.1 q.2 x) ∈ (cut q.1 q.2 p).states := List.mem_map.2 ⟨(some k, x), hx, rfl⟩
        rw [toTensors_unknown hin hnot]
        rfl
      rw [feed, hc]
      exact ⟨_, rfl⟩

/-- Everything passed on has the names, shapes and values of the specification. -/
theorem conform (spec : Spec) (mid : Bool) (a : Args) : ∀ b ∈ (experience spec mid a).1,
    Conforms spec.states b.states ∧ Conforms (spec.actions.map (fun e => (e.1, e.2.ent))) b.actions ∧
    Conforms (spec.internals.map (fun e => (some e.1, ⟨e.2.shape, fun _ => true⟩))) b.internals ∧
    Conforms (spec.actions.filterMap (fun e => e.2.mask.map (fun m => (e.1, ⟨e.2.ent.shape ++ [m], fun _ => true⟩)))) b.masks := by
  intro b hb
  rcases experience_fed (spec := spec) (mid := mid) (a := a) with h | ⟨p, _, h⟩
  · rw [h] at hb; exact absurd hb List.not_mem_nil
  · rw [h] at hb
    obtain ⟨q, _, hc⟩ := feed_mem b hb
    unfold convert at hc
    obtain ⟨st, h1, hc⟩ := bind_eq_ok hc
    obtain ⟨int, h2, hc⟩ := bind_eq_ok hc
    obtain ⟨masks, h3, hc⟩ := bind_eq_ok hc
    obtain ⟨act, h4, hc⟩ := bind_eq_ok hc
    rw [← Except.ok.inj hc]
    exact ⟨toTensors_conform h1, toTensors_conform h4, toTensors_conform h2, toTensors_conform h3⟩

/-- An agent with one named state. -/
def agent : Spec := ⟨[(some "s", ⟨[], fun _ => true⟩)], [(none, ⟨⟨[], fun _ => true⟩, none⟩)], []⟩

example : (experience agent false ⟨.dict [("s", ⟨[], [1]⟩)], .array ⟨[], [0]⟩, .one 1, .one 0, .absent⟩).1 ≠ [] := by decide +kernel

example : experience agent false ⟨.dict [("s", ⟨[1], [1]⟩)], .array ⟨[1], [0]⟩, .one 1, .one 0, .absent⟩ = ([], some .index) := by decide +kernel

example : experience agent false ⟨.dict [("s", ⟨[1], [1]⟩)], .list ⟨[1], [0]⟩, .many [1], .many [0], .absent⟩ = ([], some .type) := by decide +kernel

example : experience agent false ⟨.dict [("s", ⟨[1], [1]⟩), ("u", ⟨[1], [1]⟩)], .array ⟨[1], [0]⟩, .many [1], .many [0], .absent⟩ = ([], some .keys) := by
  decide +kernel

example : processStates agent.states (.array ⟨[1], [1]⟩) = .error .type := by decide +kernel

example : processStates agent.states (.list [("s", ⟨[], [1]⟩)] [none]) = .error .type := by decide +kernel

end Verif.Props.FeedReject
