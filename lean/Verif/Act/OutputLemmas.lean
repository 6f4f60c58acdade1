import Verif.Act.RejectLemmas
import Verif.Act.InvLemmas

/-!
# `Agent.act`: lemmas on what is returned, on masks and on internal states
-/

namespace Verif.Act

open Verif.Feed

theorem mapM_get {α β : Type} {f : α → Except Err β} : ∀ {l : List α} {r : List β}, l.mapM f = .ok r →
    r.length = l.length ∧ ∀ i (h : i < l.length) (h' : i < r.length), f l[i] = .ok r[i]
  | [], r, h => by
    rw [← Except.ok.inj h]
    exact ⟨rfl, nofun⟩
  | a :: l, r, h => by
    rw [List.mapM_cons] at h
    obtain ⟨b, hb, h⟩ := bind_eq_ok h
    obtain ⟨c, hc, h⟩ := bind_eq_ok h
    obtain ⟨h1, h2⟩ := mapM_get hc
    rw [← Except.ok.inj h]
    refine ⟨congrArg (· + 1) h1, fun i hi hi' => ?_⟩
    cases i with
    | zero => exact hb
    | succ i => exact h2 i (Nat.lt_of_succ_lt_succ hi) (Nat.lt_of_succ_lt_succ hi')

theorem mapM_from {α β : Type} {f : α → Except Err β} {l : List α} {r : List β} (h : l.mapM f = .ok r) : ∀ b ∈ r, ∃ a ∈ l, f a = .ok b := by
  obtain ⟨h1, h2⟩ := mapM_get h
  intro b hb
  obtain ⟨i, hi, e⟩ := List.getElem_of_mem hb
  exact ⟨_, List.getElem_mem (h1 ▸ hi), by rw [h2 i (h1 ▸ hi) hi, e]⟩

theorem rowAt_inv {i : Nat} {x y : Nd} (h : rowAt i x = .ok y) : RowOf x y i := by
  unfold rowAt at h
  cases hs : x.shape with
  | nil => rw [hs] at h; exact absurd h nofun
  | cons n s =>
    rw [hs] at h
    dsimp only at h
    split at h
    · rename_i hi
      refine ⟨⟨n, by rw [hs]; rfl, hi⟩, ?_⟩
      rw [← Except.ok.inj h]
      unfold row
      rw [hs, size_eq]
      rfl
    · exact absurd h nofun

theorem toTensors_values {ents : List (Key × Ent)} {b : Bool} {f g : Flat} (h : toTensors ents b f = .ok g) :
    ∀ p ∈ g, valueOf p.1 f = some p.2 := by
  intro p hp
  unfold toTensors at h
  obtain ⟨_, _, h⟩ := bind_eq_ok h
  obtain ⟨e, _, he⟩ := mapM_from h p hp
  obtain ⟨x, hx, hy⟩ := bind_eq_ok he
  obtain ⟨y, hy, hz⟩ := bind_eq_ok hy
  rw [lookup_eq] at hx
  rw [← Except.ok.inj hz]
  have hxy : y = x := by
    unfold toTensor at hy
    split at hy
    · split at hy
      · exact (Except.ok.inj hy).symm
      · exact absurd hy nofun
    · exact absurd hy nofun
  rw [hxy]
  show valueOf e.1 f = some x
  cases hv : valueOf e.1 f with
  | none => rw [hv] at hx; exact absurd hx nofun
  | some x' => rw [hv] at hx; rw [Except.ok.inj hx]

theorem toTensors_surplus {ents : List (Key × Ent)} {f g : Flat} (h : toTensors ents false f = .ok g) :
    ∀ p ∈ f, ∃ e ∈ ents, e.1 = p.1 := by
  intro p hp
  unfold toTensors at h
  obtain ⟨_, hc, _⟩ := bind_eq_ok h
  unfold check at hc
  split at hc
  · rename_i hk
    rw [Bool.false_or, Bool.and_eq_true] at hk
    have := List.all_eq_true.1 hk.1 p hp
    obtain ⟨e, he, hep⟩ := List.mem_map.1 (List.contains_iff_mem.1 this)
    exact ⟨e, he, hep⟩
  · exact absurd hc nofun

theorem theValue_inv {f : Flat} {x : Nd} (h : theValue f = .ok x) : f = [(none, x)] := by
  unfold theValue at h
  split at h
  · rw [Except.ok.inj h]
  · exact absurd h nofun

theorem rowsAt_inv {f : Flat} {i : Nat} {d : Dict} (h : rowsAt f i = .ok d) : ∀ e ∈ d, ∃ x, (some e.1, x) ∈ f ∧ RowOf x e.2 i := by
  intro e he
  obtain ⟨a, ha, hae⟩ := mapM_from h e he
  obtain ⟨y, hy, hz⟩ := bind_eq_ok hae
  rw [← Except.ok.inj hz]
  exact ⟨a.2, named_mem.1 ha, rowAt_inv hy⟩

theorem range_rows {α : Type} {f : Nat → Except Err α} {n : Nat} {l : List α} (h : (List.range n).mapM f = .ok l) :
    ∀ i (hi : i < l.length), f i = .ok l[i] := by
  obtain ⟨h1, h2⟩ := mapM_get h
  intro i hi
  have := h2 i (h1 ▸ hi) hi
  rw [List.getElem_range] at this
  exact this

theorem actions_of {one : Bool} {inp : Input} {f g : Flat} {out : Actions} (hg : ∀ p ∈ g, valueOf p.1 f = some p.2)
    (h : unbatchActions one inp g = .ok out) : OfPolicy f out := by
  have hone : ∀ x, theValue g = .ok x → valueOf none f = some x := fun x hx => by
    have := theValue_inv hx
    exact hg (none, x) (by rw [this]; exact List.mem_cons_self)
  unfold unbatchActions at h
  split at h
  · split at h
    · obtain ⟨x, hx, h⟩ := bind_eq_ok h
      split at h
      · obtain ⟨l, hl, h⟩ := bind_eq_ok h
        rw [← Except.ok.inj h]
        exact .values (hone x hx) (fun i hi => rowAt_inv (range_rows hl i hi))
      · rw [← Except.ok.inj h]
        exact .value (hone x hx)
    · split at h
      · obtain ⟨l, hl, h⟩ := bind_eq_ok h
        rw [← Except.ok.inj h]
        refine .dicts (fun i hi e he => ?_)
        obtain ⟨x, hx, hr⟩ := rowsAt_inv (range_rows hl i hi) e he
        exact ⟨x, hg _ hx, hr⟩
      · rw [← Except.ok.inj h]
        exact .dict (fun e he => hg _ (named_mem.1 he))
  · split at h
    · obtain ⟨x, hx, h⟩ := bind_eq_ok h
      obtain ⟨y, hy, h⟩ := bind_eq_ok h
      rw [← Except.ok.inj h]
      exact .first (hone x hx) (rowAt_inv hy)
    · obtain ⟨d, hd, h⟩ := bind_eq_ok h
      rw [← Except.ok.inj h]
      refine .firsts (fun e he => ?_)
      obtain ⟨x, hx, hr⟩ := rowsAt_inv hd e he
      exact ⟨x, hg _ hx, hr⟩

theorem internals_of {inp : Input} {f g : Flat} {out : Internals} (hg : ∀ p ∈ g, valueOf p.1 f = some p.2)
    (h : unbatchInternals inp g = .ok out) : StatesOf f out := by
  unfold unbatchInternals at h
  split at h
  · split at h
    · obtain ⟨l, hl, h⟩ := bind_eq_ok h
      rw [← Except.ok.inj h]
      refine .dicts (fun i hi e he => ?_)
      obtain ⟨x, hx, hr⟩ := rowsAt_inv (range_rows hl i hi) e he
      exact ⟨x, hg _ hx, hr⟩
    · rw [← Except.ok.inj h]
      exact .dict (fun e he => hg _ (named_mem.1 he))
  · obtain ⟨d, hd, h⟩ := bind_eq_ok h
    rw [← Except.ok.inj h]
    refine .firsts (fun e he => ?_)
    obtain ⟨x, hx, hr⟩ := rowsAt_inv hd e he
    exact ⟨x, hg _ hx, hr⟩

/-- What an accepted call implies for its outputs. -/
theorem outputs_inv {spec : Spec} {a : Args} {out o : Flat × Flat} (h : outputs spec a out = .ok o) :
    (∀ p ∈ o.1, valueOf p.1 out.1 = some p.2) ∧ (∀ p ∈ o.2, valueOf p.1 out.2 = some p.2) ∧ (∀ p ∈ out.1, ∃ e ∈ actionSpec spec, e.1 = p.1) ∧
      (a.independent = true → spec.internals ≠ [] → (∀ e ∈ internalSpec spec, ∃ x, valueOf e.1 out.2 = some x ∧ x.shape.tail = e.2.shape) ∧
        ∀ p ∈ out.2, ∃ e ∈ internalSpec spec, e.1 = p.1) := by
  unfold outputs at h
  obtain ⟨acts, hacts, h⟩ := bind_eq_ok h
  split at h
  · obtain ⟨ints, hints, h⟩ := bind_eq_ok h
    rw [← Except.ok.inj h]
    refine ⟨toTensors_values hacts, toTensors_values hints, toTensors_surplus hacts, fun _ _ => ⟨fun e he => ?_, toTensors_surplus hints⟩⟩
    obtain ⟨x, h1, h2, _⟩ := toTensors_found hints e he
    exact ⟨x, h1, h2⟩
  · rename_i hc
    rw [← Except.ok.inj h]
    refine ⟨toTensors_values hacts, nofun, toTensors_surplus hacts, fun hi hne => ?_⟩
    rw [hi, Bool.true_and, Bool.not_eq_true', Bool.not_eq_false, List.isEmpty_iff] at hc
    exact absurd hc hne

theorem tensors_masks {spec : Spec} {n : Nat} {a : Args} {q : Ready} {call : Call} (h : tensors spec n a q = .ok call) :
    Conforms (maskSpec spec) call.masks ∧ (a.independent = true → absent a.internals = false → Conforms (internalSpec spec) call.internals) := by
  unfold tensors at h
  obtain ⟨st, _, h⟩ := bind_eq_ok h
  obtain ⟨states, hst, h⟩ := bind_eq_ok h
  obtain ⟨internals, hint, h⟩ := bind_eq_ok h
  obtain ⟨masks, hmk, h⟩ := bind_eq_ok h
  by_cases hi : a.independent = true
  · rw [if_pos hi] at h
    rw [← Except.ok.inj h]
    refine ⟨toTensors_conform hmk, fun _ ha => ?_⟩
    unfold internalsTensor at hint
    rw [hi, ha] at hint
    rw [if_pos (show (true && !false) = true from rfl)] at hint
    exact toTensors_conform hint
  · rw [if_neg hi] at h
    obtain ⟨par, hpar, h⟩ := bind_eq_ok h
    rw [← Except.ok.inj h]
    exact ⟨toTensors_conform hmk, fun h' => absurd h' hi⟩

/-- Everything after the checks of the recorder. -/
theorem after_outputs {spec : Spec} {net : Net} {n : Nat} {a : Args} {q : Ready} {r : Result} (h : after spec net n a q = .ok r) :
    ∃ o, tensors spec n a q = .ok r.call ∧ outputs spec a (net r.call) = .ok o ∧ OfPolicy (net r.call).1 r.actions ∧
      ∀ out, r.internals = some out → StatesOf (net r.call).2 out := by
  unfold after at h
  obtain ⟨call, hcall, h⟩ := bind_eq_ok h
  obtain ⟨o, hout, h⟩ := bind_eq_ok h
  obtain ⟨h1, h2, _⟩ := outputs_inv hout
  unfold returned at h
  obtain ⟨acts, hacts, h⟩ := bind_eq_ok h
  split at h
  · obtain ⟨ints, hints, h⟩ := bind_eq_ok h
    rw [← Except.ok.inj h]
    exact ⟨o, hcall, hout, actions_of h1 hacts, fun out ho => by rw [← Option.some.inj ho]; exact internals_of h2 hints⟩
  · rw [← Except.ok.inj h]
    exact ⟨o, hcall, hout, actions_of h1 hacts, fun out ho => absurd ho nofun⟩

/-- An independent call up to its internal states. -/
theorem independent_error {spec : Spec} {net : Net} {flags : List Bool} {a : Args} (hi : a.independent = true)
    (h : ∀ inp, processStates spec.states a.states = .ok inp → ∃ e, internalsArg inp a.internals = .error e) :
    ∃ e, act spec net flags a = (flags, .error e) := by
  have : ∃ e, before spec flags a = .error e := by
    unfold before
    cases hc : checkArgs spec a with
    | error e => exact ⟨e, rfl⟩
    | ok u =>
      rw [bind_ok]
      cases hp : processStates spec.states a.states with
      | error e => exact ⟨e, rfl⟩
      | ok inp =>
        obtain ⟨e, he⟩ := h inp hp
        refine ⟨e, ?_⟩
        rw [bind_ok]
        unfold modeArgs
        rw [if_pos hi, he]
        rfl
  obtain ⟨e, he⟩ := this
  exact ⟨e, act_error he⟩

end Verif.Act
