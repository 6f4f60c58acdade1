import Verif.Feed.ExtraLemmas

/-!
# Pretraining on recorded traces (C115)

Every iteration feeds each selected trace once and then performs the updates.
-/

namespace Verif.Props.Pretrain

open Verif.Feed

/-- The traces selected in an iteration. -/
def chosen (numTraces : Option Nat) (order : List Nat) : List Nat :=
  match numTraces with
  | none => order
  | some n => order.take n

/-- Every iteration feeds the selected traces, whole and in order, and then updates. -/
theorem pretrain_partial (spec : Spec) (files : List Trace) (numTraces : Option Nat) (numUpdates : Nat) (hs : Sound spec)
    (hfiles : ∀ t ∈ files, ∃ n, Fits spec t n) (hne : files ≠ []) (hnum : numTraces ≠ some 0) :
    ∀ (orders : List (List Nat)), (∀ order ∈ orders, order.Perm (List.range files.length)) →
    ∃ feds : List (List Batch), feds.length = orders.length ∧
      pretrain spec files numTraces numUpdates orders =
        (feds.flatMap (fun fed => fed.map Event.fed ++ List.replicate numUpdates Event.update), none) ∧
      ∀ i (h : i < orders.length) (h' : i < feds.length), Covers spec feds[i] ((chosen numTraces orders[i]).filterMap (files[·]?))
  | [], _ => ⟨[], rfl, rfl, fun i h => absurd h (Nat.not_lt_zero i)⟩
  | order :: r, hp => by
    have hperm := hp order List.mem_cons_self
    have hlt : ∀ i ∈ order, i < files.length := fun i hi => List.mem_range.1 (hperm.mem_iff.1 hi)
    have hlen : order.length = files.length := by rw [hperm.length_eq, List.length_range]
    have hpos : 0 < files.length := List.length_pos_iff.2 hne
    have hsel : select numTraces order ≠ [] := by
      intro h
      have hl := congrArg List.length h
      cases numTraces with
      | none =>
        have : order.length = 0 := hl
        omega
      | some n =>
        have : (order.take n).length = 0 := hl
        rw [List.length_take, hlen] at this
        have hn : n ≠ 0 := fun e => hnum (by rw [e])
        omega
    obtain ⟨fed, hit, hcov⟩ := iteration_ok hs hfiles numTraces numUpdates hsel hlt
    obtain ⟨feds, hl, hpre, hall⟩ := pretrain_partial spec files numTraces numUpdates hs hfiles hne hnum r
      (fun o ho => hp o (List.mem_cons_of_mem _ ho))
    refine ⟨fed :: feds, by rw [List.length_cons, List.length_cons, hl], ?_, ?_⟩
    · rw [pretrain, hit]
      dsimp only
      rw [hpre, List.flatMap_cons]
    · intro i h h'
      cases i with
      | zero => exact hcov
      | succ i => exact hall i (Nat.lt_of_succ_lt_succ h) (Nat.lt_of_succ_lt_succ h')

/-- The selected traces are distinct, and as many as asked for if there are enough. -/
theorem distinct (files : List Trace) (numTraces : Option Nat) (order : List Nat) (h : order.Perm (List.range files.length)) :
    (select numTraces order).Nodup ∧ (∀ i ∈ select numTraces order, i < files.length) ∧
      (select numTraces order).length = (numTraces.getD files.length).min files.length := by
  have hn : order.Nodup := h.nodup_iff.2 List.nodup_range
  have hlen : order.length = files.length := by rw [h.length_eq, List.length_range]
  have hlt : ∀ i ∈ order, i < files.length := fun i hi => List.mem_range.1 (h.mem_iff.1 hi)
  cases numTraces with
  | none => exact ⟨hn, hlt, by show order.length = Nat.min files.length files.length; rw [hlen]; exact (Nat.min_self _).symm⟩
  | some n =>
    refine ⟨hn.sublist (List.take_sublist n order), fun i hi => hlt i (List.mem_of_mem_take hi), ?_⟩
    show (order.take n).length = Nat.min n files.length
    rw [List.length_take, hlen]

/-- States are recorded by the names of the specification: masks are not among them. -/
theorem recorded (spec : List (Key × Ent)) (states r : Flat) (h : recordStates spec states = .ok r) :
    r.map Prod.fst = spec.map Prod.fst ∧ ∀ e ∈ r, valueOf e.1 states = some e.2 := by
  induction spec generalizing r with
  | nil => rw [← Except.ok.inj h]; exact ⟨rfl, nofun⟩
  | cons a t ih =>
    unfold recordStates at h ih
    rw [List.mapM_cons] at h
    obtain ⟨b, hb, h⟩ := bind_eq_ok h
    obtain ⟨x, hx, hb⟩ := bind_eq_ok hb
    obtain ⟨l, hl, h⟩ := bind_eq_ok h
    obtain ⟨h1, h2⟩ := ih l hl
    have hr := Except.ok.inj h
    have hb := Except.ok.inj hb
    rw [lookup_eq] at hx
    have hv : valueOf a.1 states = some x := by
      cases hv : valueOf a.1 states with
      | none => rw [hv] at hx; exact absurd hx nofun
      | some y => rw [hv] at hx; rw [Except.ok.inj hx]
    rw [← hr, ← hb]
    refine ⟨by rw [List.map_cons, List.map_cons, h1], fun e he => ?_⟩
    rcases List.mem_cons.1 he with e' | he
    · rw [e']; exact hv
    · exact h2 e he

/-- An agent with an unnamed state and a masked action. -/
def masked : Spec := ⟨[(none, ⟨[], fun _ => true⟩)], [(none, ⟨⟨[], fun _ => true⟩, some 2⟩)], []⟩

/-- An agent with a named state and a masked action. -/
def maskedNamed : Spec := ⟨[(some "s", ⟨[], fun _ => true⟩)], [(none, ⟨⟨[], fun _ => true⟩, some 2⟩)], []⟩

/-- An agent with one unnamed state and two actions. -/
def twoActions : Spec := ⟨[(none, ⟨[], fun _ => true⟩)],
  [(some "a", ⟨⟨[], fun _ => true⟩, none⟩), (some "b", ⟨⟨[], fun _ => true⟩, none⟩)], []⟩

/-- An agent with a named state and an internal state. -/
def recurrent : Spec := ⟨[(some "s", ⟨[], fun _ => true⟩)], [(none, ⟨⟨[], fun _ => true⟩, none⟩)], [("h", ⟨[2], [0, 0]⟩)]⟩

/-- Without a matching file, or with no trace asked for, pretraining fails with an `AttributeError`. -/
theorem nothing_violation (spec : Spec) (files : List Trace) (numTraces : Option Nat) (numUpdates : Nat) (r : List (List Nat)) (order : List Nat)
    (h : files = [] ∧ order = [] ∨ numTraces = some 0) :
    pretrain spec files numTraces numUpdates (order :: r) = ([], some .attribute) := by
  have hsel : select numTraces order = [] := by
    rcases h with ⟨_, h⟩ | h
    · rw [h]; cases numTraces with
      | none => rfl
      | some n => exact List.take_nil
    · rw [h]; rfl
  rw [pretrain, iteration, hsel]
  rfl

/-- The states of a masked agent with one unnamed state cannot be recorded: the mask has to be passed in a dictionary. -/
theorem record_violation :
    recordStates masked.states [(some "state", ⟨[1], [1]⟩), (some "action_mask", ⟨[1, 2], [1, 0]⟩)] = .error .assertion := by
  decide +kernel

/-- Masks are not recorded, and all actions count as allowed in pretraining. -/
theorem masks_violation :
    recordStates maskedNamed.states [(some "s", ⟨[1], [5]⟩), (some "action_mask", ⟨[1, 2], [1, 0]⟩)] = .ok [(some "s", ⟨[1], [5]⟩)] ∧
    pretrain maskedNamed [⟨[(some "s", ⟨[1], [5]⟩)], [(none, ⟨[1], [0]⟩)], [1], [0], []⟩] none 0 [[0]] =
      ([.fed ⟨[(some "s", ⟨[1], [5]⟩)], [], [(none, ⟨[1, 2], [1, 1]⟩)], [(none, ⟨[1], [0]⟩)], [1], [0]⟩], none) := by
  decide +kernel

/-- Traces of an agent with one unnamed state and several actions are rejected. -/
theorem actions_violation :
    pretrain twoActions [⟨[(none, ⟨[1], [5]⟩)], [(some "a", ⟨[1], [0]⟩), (some "b", ⟨[1], [0]⟩)], [1], [0], []⟩] none 1 [[0]] =
      ([], some .type) := by decide +kernel

/-- Traces of more than one time step of an agent with named states and internal states are rejected. -/
theorem internals_violation :
    pretrain recurrent [⟨[(some "s", ⟨[2], [5, 6]⟩)], [(none, ⟨[2], [0, 0]⟩)], [0, 1], [0, 0], []⟩] none 1 [[0]] =
      ([], some .value) := by decide +kernel

/-- An agent with one state and one action, both unnamed. -/
def plain : Spec := ⟨[(none, ⟨[], fun _ => true⟩)], [(none, ⟨⟨[], fun _ => true⟩, none⟩)], []⟩

example : pretrain plain [⟨[(none, ⟨[1], [5]⟩)], [(none, ⟨[1], [0]⟩)], [1], [9], []⟩, ⟨[(none, ⟨[2], [6, 7]⟩)], [(none, ⟨[2], [1, 0]⟩)], [0, 2], [4, 3], []⟩]
    (some 2) 1 [[1, 0]] =
    ([.fed ⟨[(none, ⟨[2], [6, 7]⟩)], [], [], [(none, ⟨[2], [1, 0]⟩)], [0, 2], [4, 3]⟩,
      .fed ⟨[(none, ⟨[1], [5]⟩)], [], [], [(none, ⟨[1], [0]⟩)], [1], [9]⟩, .update], none) := by decide +kernel

example : [1, 0].Perm (List.range 2) := .swap 0 1 []

example : recordStates maskedNamed.states [(some "s", ⟨[1], [5]⟩)] = .ok [(some "s", ⟨[1], [5]⟩)] := by decide +kernel

end Verif.Props.Pretrain
