import Verif.Act.RejectLemmas

/-!
# `Agent.act`: returned internal states as arguments of the next call
-/

namespace Verif.Act

open Verif.Feed

theorem row_proper {n i : Nat} {x : Nd} {s : List Nat} (h : x.shape = n :: s) (hp : Proper x) (hi : i < n) : Proper (row x i) := by
  unfold Proper row at *
  rw [h] at hp ⊢
  rw [count_cons] at hp
  dsimp only [List.tail_cons]
  rw [List.length_take, List.length_drop, hp]
  have : (i + 1) * count s ≤ n * count s := Nat.mul_le_mul_right _ hi
  rw [Nat.succ_mul] at this
  omega

theorem named_keyed : ∀ (d : Dict), named (d.map (fun e => (some e.1, e.2))) = d
  | [] => rfl
  | (k, x) :: r => by
    show (k, x) :: named (r.map (fun e => (some e.1, e.2))) = _
    rw [named_keyed r]

theorem filterMap_range {α β : Type} {f : α → Option β} : ∀ {l : List α} {g : Nat → β},
    (∀ i (h : i < l.length), f l[i] = some (g i)) → l.filterMap f = (List.range l.length).map g
  | [], _, _ => rfl
  | a :: r, g, h => by
    have h0 : f a = some (g 0) := h 0 (Nat.succ_pos _)
    have ih := filterMap_range (l := r) (g := fun i => g (i + 1)) (fun i hi => h (i + 1) (Nat.succ_lt_succ hi))
    rw [List.filterMap_cons_some h0, ih, List.length_cons, List.range_succ_eq_map, List.map_cons, List.map_map]
    rfl

/-- Returned internal states as an argument. -/
def asArgument : Internals → InternalsIn
  | .dict d => .dict d
  | .dicts l => .list l

theorem named_given {spec : Spec} {n : Nat} {f : Flat} (hd : (spec.internals.map Prod.fst).Nodup) (h : Match n (internalSpec spec) f) :
    GivenInternals spec n (named f) ∧ ∀ e ∈ spec.internals, ∃ x, (some e.1, x) ∈ f ∧ valueOf e.1 (named f) = some x := by
  have hnf : ∀ p ∈ f, p.1 ≠ none := match_named h (by
    intro p hp
    obtain ⟨q, _, hq⟩ := List.mem_map.1 hp
    rw [← hq]
    exact nofun)
  have hnod : (f.map Prod.fst).Nodup := by
    rw [match_names h]; exact internalEnts_nodup hd
  have hkeyed : keyed (named f) = f := named_names hnf
  have hval : ∀ {k : String} {x : Nd}, (some k, x) ∈ f → valueOf k (named f) = some x := by
    intro k x hx
    rw [← valueOf_keyed, hkeyed]
    exact valueOf_mem hnod _ hx
  refine ⟨⟨fun p hp => match_rows h _ (named_mem.1 hp), fun e he => ?_⟩, fun e he => ?_⟩
  · obtain ⟨x, hx, hsh, hp⟩ := match_mem h (some e.1, ⟨e.2.shape, fun _ => true⟩) (List.mem_map.2 ⟨e, he, rfl⟩)
    exact ⟨x, hval hx, hsh, hp⟩
  · obtain ⟨x, hx, _⟩ := match_mem h (some e.1, ⟨e.2.shape, fun _ => true⟩) (List.mem_map.2 ⟨e, he, rfl⟩)
    exact ⟨x, hx, hval hx⟩

theorem picks_nodup {f : Flat} {i : Nat} {d : Dict} (hn : (f.map Prod.fst).Nodup) (h : Picks f i d) : (d.map Prod.fst).Nodup := by
  rw [← h.1] at hn
  have : d.map (fun e => some e.1) = (d.map Prod.fst).map some := by rw [List.map_map]; rfl
  rw [this] at hn
  exact List.Pairwise.of_map some (fun a b h e => h (congrArg some e)) hn

theorem map_some_cancel : ∀ {l l' : List String}, l.map some = l'.map some → l = l'
  | [], [], _ => rfl
  | [], _ :: _, h => absurd h nofun
  | _ :: _, [], h => absurd h nofun
  | a :: r, b :: r', h => by
    have := List.cons.inj h
    rw [Option.some.inj this.1, map_some_cancel this.2]

theorem picks_names {f : Flat} {i : Nat} {d : Dict} (hnf : ∀ p ∈ f, p.1 ≠ none) (h : Picks f i d) : (named f).map Prod.fst = d.map Prod.fst := by
  apply map_some_cancel
  have h1 := congrArg (List.map Prod.fst) (named_names hnf)
  rw [List.map_map] at h1
  rw [List.map_map, List.map_map]
  exact h1.trans h.1.symm

/-- Every array of a specification has a row of the shape for each time step. -/
theorem match_shape {n : Nat} {ents : List (Key × Ent)} {f : Flat} (h : Match n ents f) : ∀ e ∈ f, ∃ s, e.2.shape = n :: s ∧ Proper e.2 := by
  induction h with
  | nil => exact nofun
  | cons hs hp _ _ ih =>
    intro e he
    rcases List.mem_cons.1 he with h | h
    · rw [h]; exact ⟨_, hs, hp⟩
    · exact ih e h

/-- Returned internal states are internal states given in the same form. -/
theorem shown_given {n : Nat} {ents : List (Key × Ent)} {f : Flat} {form : Form} {out : Internals} (hnf : ∀ p ∈ f, p.1 ≠ none)
    (hnod : (f.map Prod.fst).Nodup) (h : Match n ents f) (hn : n ≠ 0) (h1 : form = .single → n = 1) (hs : ShowsInternals n f form out) :
    GivenBy n (named f) (asArgument out) form := by
  cases form with
  | columns =>
    cases out with
    | dict d =>
      have hd : named f = d := by rw [show f = d.map (fun e => (some e.1, e.2)) from hs, named_keyed]
      rw [hd]
      exact .columns
    | dicts l => exact hs.elim
  | single =>
    have := h1 rfl
    subst this
    cases out with
    | dicts l => exact hs.elim
    | dict d =>
      have hp : Picks f 0 d := hs
      refine .single ⟨picks_nodup hnod hp, ?_, nofun⟩ ⟨picks_names hnf hp, ?_⟩
      · intro e he
        obtain ⟨x, hx, hrow⟩ := hp.2 e he
        obtain ⟨s, hsx, hpx⟩ := match_shape h _ hx
        rw [← hrow]
        exact row_proper hsx hpx Nat.one_pos
      · intro e he x hx
        obtain ⟨y, hy, hrow⟩ := hp.2 e he
        have hxy : x = y := Option.some.inj ((valueOf_mem hnod _ (named_mem.1 hx)).symm.trans (valueOf_mem hnod _ hy))
        subst hxy
        obtain ⟨s, hsx, hpx⟩ := match_shape h _ hy
        refine ⟨hpx, by dsimp only at hsx; rw [hsx]; rfl, ?_⟩
        intro i hi
        have : i = 0 := Nat.lt_one_iff.1 hi
        subst this
        exact hrow
  | rows =>
    cases out with
    | dict d => exact hs.elim
    | dicts l =>
      obtain ⟨hl, hp⟩ := hs
      cases l with
      | nil => exact absurd hl.symm hn
      | cons d ds =>
        have hp0 : Picks f 0 d := hp 0 (Nat.succ_pos _)
        have hvals : ∀ {k : String} {x : Nd}, (some k, x) ∈ f → ∀ i (hi : i < (d :: ds).length), valueOf k (d :: ds)[i] = some (row x i) := by
          intro k x hx i hi
          exact picks_value hnod (hp i hi) hx
        have hmem : ∀ e ∈ d, ∃ x s, (some e.1, x) ∈ f ∧ row x 0 = e.2 ∧ x.shape = n :: s ∧ Proper x := by
          intro e he
          obtain ⟨x, hx, hrow⟩ := hp0.2 e he
          obtain ⟨s, hsx, hpx⟩ := match_shape h _ hx
          exact ⟨x, s, hx, hrow, hsx, hpx⟩
        refine .rows ⟨picks_nodup hnod hp0, ?_, ?_⟩ ⟨picks_names hnf hp0, ?_⟩
        · intro e he
          obtain ⟨x, s, hx, hrow, hsx, hpx⟩ := hmem e he
          rw [← hrow]
          exact row_proper hsx hpx (by rw [← hl]; exact Nat.succ_pos _)
        · intro e he d' hd'
          obtain ⟨x, s, hx, hrow, hsx, hpx⟩ := hmem e he
          obtain ⟨i, hi, hid⟩ := List.getElem_of_mem hd'
          have hi' : i + 1 < (d :: ds).length := Nat.succ_lt_succ hi
          refine ⟨row x (i + 1), ?_, ?_, row_proper hsx hpx (by rw [← hl]; exact hi')⟩
          · rw [← hid]
            exact hvals hx (i + 1) hi'
          · rw [← hrow]; rfl
        · intro e he x hx
          obtain ⟨y, s, hy, hrow, hsx, hpx⟩ := hmem e he
          have hxy : x = y := Option.some.inj ((valueOf_mem hnod _ (named_mem.1 hx)).symm.trans (valueOf_mem hnod _ hy))
          subst hxy
          have hlist : e.2 :: ds.filterMap (valueOf e.1) = (List.range n).map (row x) := by
            have hd0 : valueOf e.1 d = some e.2 := by
              rw [← hrow]; exact hvals hy 0 (Nat.succ_pos _)
            rw [← List.filterMap_cons_some hd0, filterMap_range (hvals hy), hl]
          rw [hlist]
          refine ⟨hpx, ?_, ?_⟩
          · rw [hsx, List.length_map, List.length_range]; rfl
          · intro i hi
            rw [List.getElem_map, List.getElem_range]

/-- A dictionary of values is the single row of their expansions. -/
theorem expanded_given {d : Dict} (hd : (d.map Prod.fst).Nodup) (hp : ∀ e ∈ d, Proper e.2) :
    GivenBy 1 (d.map (fun e => (e.1, (⟨1 :: e.2.shape, e.2.data⟩ : Nd)))) (.dict d) .single := by
  refine .single ⟨hd, hp, nofun⟩ ⟨by rw [List.map_map]; rfl, ?_⟩
  intro e he x hx
  obtain ⟨q, hq, hqx⟩ := List.mem_map.1 hx
  have h1 := (Prod.mk.inj hqx).1
  have h2 := valueOf_mem hd q hq
  rw [h1, valueOf_mem hd e he] at h2
  rw [← (Prod.mk.inj hqx).2, ← Option.some.inj h2]
  have := represents_stack e.2.shape [e.2] (by intro r hr; rw [List.mem_singleton.1 hr]) (by intro r hr; rw [List.mem_singleton.1 hr]; exact hp e he)
  rw [List.flatMap_cons, List.flatMap_nil, List.append_nil] at this
  exact this

end Verif.Act
