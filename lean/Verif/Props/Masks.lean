import Verif.Feed.MaskLemmas

/-!
# Feeding experience with masks (C114)

States and masks given by name, for any number of actions.
-/

namespace Verif.Props.Masks

open Verif.Feed

/-- Experience of whole episodes given by name is passed on completely, and each masked action gets the mask
passed among the states, or otherwise one which allows everything. -/
theorem masked_partial (spec : Spec) (t : Trace) (n : Nat) (given : Flat) (hs : Maskable spec) (ht : Fits spec t n)
    (hi : spec.internals = [] ∨ n = 1) (hg : GivenMasks spec n given) :
    ∃ fed, experience spec false (argsWith t given) = (fed, none) ∧ Covers spec fed [t] ∧
      (∀ e ∈ spec.actions, ∀ m, e.2.mask = some m →
        Glued (e.2.ent.shape ++ [m]) (((valueOf e.1 given).map Nd.data).getD (List.replicate (n * count (e.2.ent.shape ++ [m])) 1))
          (fed.map (fun b => b.terminal.length)) (column Batch.masks e.1 fed)) ∧
      ∀ timesteps episodes, counters timesteps episodes fed = (timesteps + n, episodes + (t.terminal.filter (· ≠ 0)).length) := by
  have hc := covers_masks hs.states hs.actions hs.initial hs.distinct ht (masksOf n given spec.actions)
  refine ⟨_, experience_masks hs ht hi hg, hc, fun e he m hm => masks_glued hs ht hg _ e he m hm, fun timesteps episodes => ?_⟩
  have hterm := hc.terminal
  rw [List.flatMap_singleton] at hterm
  have hcount := episodes_count _ hc.episodes
  rw [hterm] at hcount
  rw [counters_eq, hterm, ht.terminal, hcount]

/-- Given internal states are passed on with the time steps; superfluous ones are ignored. -/
theorem internals_partial (spec : Spec) (t : Trace) (n : Nat) (given : Flat) (internals : Dict) (hs : Maskable spec) (ht : Fits spec t n)
    (hi : GivenInternals spec n internals) (hg : GivenMasks spec n given) :
    ∃ fed, experience spec false (argsAll t given (.dict internals)) = (fed, none) ∧ Covers { spec with internals := [] } fed [t] ∧
      ∀ e ∈ spec.internals, ∀ x, valueOf e.1 internals = some x →
        Glued e.2.shape x.data (fed.map (fun b => b.terminal.length)) (column Batch.internals (some e.1) fed) := by
  refine ⟨_, experience_all hs ht rfl ?_ (fun a b => toTensors_chosen hi a b) hg, ?_, fun e he x hx => internals_glued hs ht hi _ e he x hx⟩
  · apply checkRows_ok
    intro p hp
    obtain ⟨q, hq, hqp⟩ := List.mem_map.1 hp
    rw [← hqp]
    exact hi.1 q hq
  · exact covers_all (spec := { spec with internals := [] }) hs.states hs.actions ⟨ht.states, ht.actions, ht.terminal, ht.reward, ht.complete, ht.masks⟩ _ _ nofun

/-- Pretraining with a trace which contains masks passes them on. -/
theorem pretrained (spec : Spec) (t : Trace) (n updates : Nat) (hs : Maskable spec) (hn : ∀ s ∈ spec.states, s.1 ≠ none)
    (ht : Fits spec { t with masks := [] } n) (hi : spec.internals = [] ∨ n = 1) (hg : GivenMasks spec n t.masks) :
    ∃ fed, pretrain spec [t] none updates [[0]] = (fed.map .fed ++ List.replicate updates .update, none) ∧ Covers spec fed [t] ∧
      ∀ e ∈ spec.actions, ∀ m, e.2.mask = some m →
        Glued (e.2.ent.shape ++ [m]) (((valueOf e.1 t.masks).map Nd.data).getD (List.replicate (n * count (e.2.ent.shape ++ [m])) 1))
          (fed.map (fun b => b.terminal.length)) (column Batch.masks e.1 fed) := by
  obtain ⟨fed, hfed, hcov, hmask, _⟩ := masked_partial spec { t with masks := [] } n t.masks hs ht hi hg
  refine ⟨fed, ?_, ⟨hcov.episodes, hcov.terminal, hcov.reward, hcov.rewards, hcov.states, hcov.actions, hcov.internals⟩, hmask⟩
  have hnamed : ∀ p ∈ t.states, p.1 ≠ none := match_named ht.states hn
  have hst : statesArg t = .ok (.dict (dictOf t.states t.masks)) := by
    have hpart : named t.states = t.states.map (fun e => (e.1.getD "state", e.2)) := by
      generalize t.states = f at hnamed
      induction f with
      | nil => rfl
      | cons p r ih =>
        obtain ⟨k, x⟩ := p
        cases k with
        | none => exact absurd rfl (hnamed (none, x) List.mem_cons_self)
        | some k =>
          have := ih (fun p hp => hnamed p (List.mem_cons_of_mem _ hp))
          show (k, x) :: named r = _
          rw [this]
          rfl
    unfold statesArg
    split
    · rename_i x hx
      rw [hx] at hnamed
      exact absurd rfl (hnamed _ List.mem_cons_self)
    · rw [hpart]
      rfl
  have hact : actionsArg t = actionsForm t.actions := actionsArg_form t
  have hexp : experience spec false ⟨.dict (dictOf t.states t.masks), actionsArg t, .many t.terminal, .many t.reward, .absent⟩ = (fed, none) := by
    rw [hact]; exact hfed
  have hiter : iteration spec [t] none updates [0] = (fed.map .fed ++ List.replicate updates .update, none) := by
    unfold iteration
    show (match joinAll [t] none [0] with | .error e => ([], some e) | .ok none => ([], some .attribute) | .ok (some t) => _) = _
    have hjoin : joinAll [t] none [0] = .ok (some t) := rfl
    rw [hjoin]
    dsimp only
    rw [hst]
    dsimp only
    rw [hexp]
  rw [pretrain, hiter]
  dsimp only
  rw [pretrain, List.append_nil]

/-- With a single unnamed state, masks in a trace make pretraining fail. -/
theorem pretrain_violation :
    pretrain ⟨[(none, ⟨[], fun _ => true⟩)], [(none, ⟨⟨[], fun _ => true⟩, some 2⟩)], []⟩
      [⟨[(none, ⟨[1], [5]⟩)], [(none, ⟨[1], [0]⟩)], [1], [3], [(none, ⟨[1, 2], [1, 0]⟩)]⟩] none 1 [[0]] = ([], some .type) := by
  decide +kernel

/-- An agent with one unnamed state and two masked actions. -/
def agent : Spec := ⟨[(none, ⟨[], fun _ => true⟩)], [(some "a", ⟨⟨[], fun _ => true⟩, some 2⟩), (some "b", ⟨⟨[], fun _ => true⟩, some 3⟩)], []⟩

/-- Two time steps. -/
def trace : Trace := ⟨[(none, ⟨[2], [5, 6]⟩)], [(some "a", ⟨[2], [0, 1]⟩), (some "b", ⟨[2], [2, 0]⟩)], [0, 1], [3, 4], []⟩

example : experience agent false (argsWith trace [(some "b", ⟨[2, 3], [0, 0, 1, 1, 0, 0]⟩)]) =
    ([⟨[(none, ⟨[2], [5, 6]⟩)], [], [(some "a", ⟨[2, 2], [1, 1, 1, 1]⟩), (some "b", ⟨[2, 3], [0, 0, 1, 1, 0, 0]⟩)],
      [(some "a", ⟨[2], [0, 1]⟩), (some "b", ⟨[2], [2, 0]⟩)], [0, 1], [3, 4]⟩], none) := by decide +kernel

example : experience { agent with internals := [("h", ⟨[], [0]⟩)] } false (argsAll trace [] (.dict [("g", ⟨[2], [1, 1]⟩), ("h", ⟨[2], [7, 8]⟩)])) =
    ([⟨[(none, ⟨[2], [5, 6]⟩)], [(some "h", ⟨[2], [7, 8]⟩)], [(some "a", ⟨[2, 2], [1, 1, 1, 1]⟩), (some "b", ⟨[2, 3], [1, 1, 1, 1, 1, 1]⟩)],
      [(some "a", ⟨[2], [0, 1]⟩), (some "b", ⟨[2], [2, 0]⟩)], [0, 1], [3, 4]⟩], none) := by decide +kernel

example : GivenInternals { agent with internals := [("h", ⟨[], [0]⟩)] } 2 [("g", ⟨[2], [1, 1]⟩), ("h", ⟨[2], [7, 8]⟩)] := by
  refine ⟨?_, ?_⟩
  · intro p hp
    rcases List.mem_cons.1 hp with h | h
    · rw [h]; rfl
    · rw [List.mem_singleton.1 h]; rfl
  · intro e he
    rw [List.mem_singleton.1 he]
    exact ⟨⟨[2], [7, 8]⟩, by decide +kernel, rfl, rfl⟩

example : pretrain ⟨[(some "s", ⟨[], fun _ => true⟩)], [(none, ⟨⟨[], fun _ => true⟩, some 2⟩)], []⟩
    [⟨[(some "s", ⟨[1], [5]⟩)], [(none, ⟨[1], [0]⟩)], [1], [3], [(none, ⟨[1, 2], [1, 0]⟩)]⟩] none 1 [[0]] =
    ([.fed ⟨[(some "s", ⟨[1], [5]⟩)], [], [(none, ⟨[1, 2], [1, 0]⟩)], [(none, ⟨[1], [0]⟩)], [1], [3]⟩, .update], none) := by decide +kernel

example : Maskable agent ∧ Fits agent trace 2 ∧ GivenMasks agent 2 [(some "b", ⟨[2, 3], [0, 0, 1, 1, 0, 0]⟩)] := by
  refine ⟨⟨.inl ⟨_, rfl⟩, .inr ⟨nofun, ?_, by decide⟩, ?_, ?_, nofun, List.nodup_nil⟩,
    ⟨.cons rfl rfl (fun _ _ => rfl) .nil, .cons rfl rfl (fun _ _ => rfl) (.cons rfl rfl (fun _ _ => rfl) .nil), rfl, rfl, ⟨[0], 1, by decide, rfl⟩, rfl⟩,
    by decide, ?_⟩
  · intro p hp
    rcases List.mem_cons.1 hp with h | h
    · rw [h]; exact nofun
    · rw [List.mem_singleton.1 h]; exact nofun
  · intro p hp
    rcases List.mem_cons.1 hp with h | h
    · rw [h]; decide
    · rw [List.mem_singleton.1 h]; decide
  · intro s hs e he _
    rw [List.mem_singleton.1 hs]
    rcases List.mem_cons.1 he with h | h
    · rw [h]; decide +kernel
    · rw [List.mem_singleton.1 h]; decide +kernel
  · intro p hp
    rw [List.mem_singleton.1 hp]
    exact ⟨_, 3, List.mem_cons_of_mem _ List.mem_cons_self, rfl, rfl, rfl⟩

end Verif.Props.Masks
