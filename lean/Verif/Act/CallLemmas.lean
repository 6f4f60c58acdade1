import Verif.Act.Lemmas
import Verif.Feed.AcceptLemmas

/-!
# `Agent.act`: lemmas on the call of the policy and the result
-/

namespace Verif.Act

open Verif.Feed

theorem mapM_match {n : Nat} {F : Flat} {ents : List (Key × Ent)} {f : Flat} (h : Match n ents f)
    (hF : ∀ e ∈ f, valueOf e.1 F = some e.2) :
    ents.mapM (fun e => do
      let x ← found .assertion (lookup e.1 F)
      let y ← toTensor e.2 x
      pure (e.1, y)) = .ok f := by
  induction h with
  | nil => rfl
  | @cons k e x r f hs _ hv _ ih =>
    have hx := hF (k, x) List.mem_cons_self
    have ht : toTensor e x = .ok x := by
      rw [toTensor, if_pos (by rw [hs]; rfl), if_pos (by rw [List.all_eq_true]; exact hv)]
    rw [List.mapM_cons]
    dsimp only
    rw [lookup_eq, hx, found, bind_ok, ht, bind_ok, ih (fun e he => hF e (List.mem_cons_of_mem _ he))]
    rfl

theorem toTensors_match {n : Nat} {ents : List (Key × Ent)} {f : Flat} (r : Bool) (h : Match n ents f) (hn : (ents.map Prod.fst).Nodup) :
    toTensors ents r f = .ok f := by
  have hnames := match_names h
  have hall1 : f.all (fun e => (ents.map Prod.fst).contains e.1) = true := by
    rw [List.all_eq_true]
    intro e he
    rw [List.contains_iff_mem, ← hnames]
    exact List.mem_map.2 ⟨e, he, rfl⟩
  have hall2 : ents.all (fun e => (f.map Prod.fst).contains e.1) = true := by
    rw [List.all_eq_true]
    intro e he
    rw [List.contains_iff_mem, hnames]
    exact List.mem_map.2 ⟨e, he, rfl⟩
  rw [toTensors, hall1, hall2, Bool.and_self, Bool.or_true, check, if_pos rfl, bind_ok]
  exact mapM_match h (fun e he => valueOf_mem (by rw [hnames]; exact hn) e he)

theorem toTensors_given {spec : Spec} {n : Nat} {given : Dict} (hg : GivenInternals spec n given) :
    toTensors (internalEnts spec.internals) true (keyed given) = .ok (chosen spec.internals given) := by
  show (check true .keys >>= fun _ => _) = _
  rw [check, if_pos rfl, bind_ok]
  apply mapM_match (match_chosen hg.2)
  intro e he
  obtain ⟨p, hp, hpe⟩ := List.mem_filterMap.1 he
  cases hv : valueOf p.1 given with
  | none => rw [hv] at hpe; exact absurd hpe nofun
  | some x =>
    rw [hv] at hpe
    rw [← Option.some.inj hpe]
    rw [valueOf_keyed, hv]

/-- Given internal states as arrays. -/
theorem internals_processed {spec : Spec} {n : Nat} {given : Dict} {ii : InternalsIn} {form : Form} {f : Flat}
    (hg : GivenInternals spec n given) (hb : GivenBy n given ii form) :
    internalsArg ⟨f, form.batched, n, form.iter⟩ ii = .ok (keyed given) := by
  have hrows : checkRows n (keyed given) = .ok () := by
    apply checkRows_ok
    intro p hp
    obtain ⟨q, hq, hqp⟩ := List.mem_map.1 hp
    rw [← hqp]
    exact hg.1 q hq
  cases hb with
  | columns =>
    show (checkRows n (keyed given) >>= fun _ => pure (keyed given)) = _
    rw [hrows]; rfl
  | @rows d ds hsame hcol =>
    have harr := columns_stacked hsame hcol
    have : stackDicts d ds = .ok (keyed given) := by
      rw [stackDicts_ok hsame, harr]
      unfold keyed
      rw [List.map_map]
      rfl
    show (stackDicts d ds >>= fun f => checkRows n f >>= fun _ => pure f) = _
    rw [this, bind_ok, hrows]; rfl
  | @single d hsame hcol =>
    have harr := columns_stacked hsame hcol
    have hex : keyed given = (keyed d).map (fun e => (e.1, expand e.2)) := by
      rw [harr]
      unfold keyed
      rw [List.map_map, List.map_map]
      apply map_congr'
      intro e _
      show (some e.1, stacked [] e) = _
      rw [stacked_nil]
      rfl
    show (checkRows n ((keyed d).map (fun e => (e.1, expand e.2))) >>= fun _ => pure ((keyed d).map (fun e => (e.1, expand e.2)))) = _
    rw [← hex, hrows]; rfl

theorem rowAt_ok {n i : Nat} {x : Nd} {s : List Nat} (h : x.shape = n :: s) (hi : i < n) : rowAt i x = .ok (row x i) := by
  unfold rowAt row
  rw [h]
  dsimp only
  rw [if_pos hi, size_eq]
  rfl

theorem mapM_range {α : Type} {f : Nat → Except Err α} {g : Nat → α} {n : Nat} (h : ∀ i, i < n → f i = .ok (g i)) :
    (List.range n).mapM f = .ok ((List.range n).map g) :=
  mapM_ok (fun i hi => h i (List.mem_range.1 hi))

/-- The rows by name. -/
def picked (f : Flat) (i : Nat) : Dict := (named f).map (fun e => (e.1, row e.2 i))

theorem named_mem {f : Flat} {e : String × Nd} : e ∈ named f ↔ (some e.1, e.2) ∈ f := by
  unfold named
  rw [List.mem_filterMap]
  constructor
  · rintro ⟨p, hp, hpe⟩
    obtain ⟨k, x⟩ := p
    cases k with
    | none => exact absurd hpe nofun
    | some k =>
      rw [← Option.some.inj hpe]
      exact hp
  · intro h
    exact ⟨_, h, rfl⟩

theorem named_names : ∀ {f : Flat}, (∀ p ∈ f, p.1 ≠ none) → (named f).map (fun e => (some e.1, e.2)) = f
  | [], _ => rfl
  | (none, _) :: _, h => absurd rfl (h _ List.mem_cons_self)
  | (some k, x) :: r, h => by
    have ih := named_names (f := r) (fun p hp => h p (List.mem_cons_of_mem _ hp))
    show (some k, x) :: (named r).map (fun e => (some e.1, e.2)) = _
    rw [ih]

theorem rowsAt_ok {n i : Nat} {ents : List (Key × Ent)} {f : Flat} (h : Match n ents f) (hi : i < n) : rowsAt f i = .ok (picked f i) := by
  unfold rowsAt picked
  apply mapM_ok
  intro e he
  have hsh := match_rows h _ (named_mem.1 he)
  cases hx : e.2.shape with
  | nil => dsimp only at hsh; rw [hx] at hsh; exact absurd hsh nofun
  | cons m s =>
    dsimp only at hsh
    rw [hx] at hsh
    have hm : m = n := Option.some.inj hsh
    subst hm
    rw [rowAt_ok hx hi]
    rfl

theorem picked_picks {f : Flat} (i : Nat) (h : ∀ p ∈ f, p.1 ≠ none) : Picks f i (picked f i) := by
  constructor
  · have := congrArg (List.map Prod.fst) (named_names h)
    rw [List.map_map] at this
    rw [← this]
    unfold picked
    rw [List.map_map]
    rfl
  · intro e he
    obtain ⟨q, hq, hqe⟩ := List.mem_map.1 he
    rw [← hqe]
    exact ⟨q.2, named_mem.1 hq, rfl⟩

/-- The actions in the form of the states. -/
theorem actions_shown {spec : Spec} {n : Nat} {f st : Flat} {form : Form} (hn : Names spec.actions) (h : Match n (actionSpec spec) f)
    (h1 : form = .single → n = 1) :
    ∃ out, unbatchActions (single spec.actions) ⟨st, form.batched, n, form.iter⟩ f = .ok out ∧ ShowsActions n f form out := by
  rcases hn with ⟨e, he⟩ | ⟨hne, hnamed, _⟩
  · unfold actionSpec at h
    rw [he] at h ⊢
    obtain ⟨x, hx, hsx⟩ := match_single h
    subst hx
    cases form with
    | single =>
      have := h1 rfl
      subst this
      refine ⟨.value (row x 0), ?_, x, rfl, rfl⟩
      show (rowAt 0 x >>= fun y => pure (Actions.value y)) = _
      rw [rowAt_ok hsx Nat.one_pos]; rfl
    | rows =>
      refine ⟨.values ((List.range n).map (row x)), ?_, x, rfl, by rw [List.length_map, List.length_range], ?_⟩
      · show ((List.range n).mapM (fun i => rowAt i x) >>= fun l => pure (Actions.values l)) = _
        rw [mapM_range (g := row x) (fun i hi => rowAt_ok hsx hi)]; rfl
      · intro i hi
        rw [List.getElem_map, List.getElem_range]
    | columns => exact ⟨.value x, rfl, rfl⟩
  · have hnf : ∀ p ∈ f, p.1 ≠ none := match_named h (by
      intro p hp
      obtain ⟨q, hq, hqp⟩ := List.mem_map.1 hp
      rw [← hqp]
      exact hnamed q hq)
    rw [single_named hnamed]
    cases form with
    | single =>
      have := h1 rfl
      subst this
      refine ⟨.dict (picked f 0), ?_, picked_picks 0 hnf⟩
      show (rowsAt f 0 >>= fun d => pure (Actions.dict d)) = _
      rw [rowsAt_ok h Nat.one_pos]; rfl
    | rows =>
      refine ⟨.dicts ((List.range n).map (picked f)), ?_, by rw [List.length_map, List.length_range], ?_⟩
      · show ((List.range n).mapM (rowsAt f) >>= fun l => pure (Actions.dicts l)) = _
        rw [mapM_range (g := picked f) (fun i hi => rowsAt_ok h hi)]; rfl
      · intro i hi
        rw [List.getElem_map, List.getElem_range]
        exact picked_picks i hnf
    | columns => exact ⟨.dict (named f), rfl, (named_names hnf).symm⟩

/-- The internal states in the form of the states. -/
theorem internals_shown {n : Nat} {ents : List (Key × Ent)} {f st : Flat} {form : Form} (hnamed : ∀ p ∈ ents, p.1 ≠ none) (h : Match n ents f)
    (h1 : form = .single → n = 1) :
    ∃ out, unbatchInternals ⟨st, form.batched, n, form.iter⟩ f = .ok out ∧ ShowsInternals n f form out := by
  have hnf : ∀ p ∈ f, p.1 ≠ none := match_named h hnamed
  cases form with
  | single =>
    have := h1 rfl
    subst this
    refine ⟨.dict (picked f 0), ?_, picked_picks 0 hnf⟩
    show (rowsAt f 0 >>= fun d => pure (Internals.dict d)) = _
    rw [rowsAt_ok h Nat.one_pos]; rfl
  | rows =>
    refine ⟨.dicts ((List.range n).map (picked f)), ?_, by rw [List.length_map, List.length_range], ?_⟩
    · show ((List.range n).mapM (rowsAt f) >>= fun l => pure (Internals.dicts l)) = _
      rw [mapM_range (g := picked f) (fun i hi => rowsAt_ok h hi)]; rfl
    · intro i hi
      rw [List.getElem_map, List.getElem_range]
      exact picked_picks i hnf
  | columns => exact ⟨.dict (named f), rfl, (named_names hnf).symm⟩

/-- A single time step has one row. -/
theorem given_single {spec : Spec} {n : Nat} {states masks : Flat} {s : StatesIn} (hs : Separable spec)
    (hm : Match n spec.states states) (hg : GivenMasks spec n masks) (h : Given n states masks s .single) : n = 1 := by
  cases h with
  | @single d hsame hcol =>
    obtain ⟨name, e, x, _, hx, _⟩ := dictOf_first (masks := masks) hs hm
    refine stacked_rows (columns_stacked hsame hcol) (dictOf_rows hm hg) ?_
    intro h0
    rw [h0] at hx
    exact absurd hx nofun
  | @one x y hx _ hrep =>
    subst hx
    have h1 : x.shape.head? = some n := match_rows hm (none, x) List.mem_cons_self
    rw [hrep.2.1] at h1
    exact (Option.some.inj h1).symm

theorem masks_as {spec : Spec} {n : Nat} {given : Flat} (hs : Separable spec) (hg : GivenMasks spec n given) :
    MasksAs spec n given (masksOf n given spec.actions) := by
  intro e he m hm
  have hnod : ((masksOf n given spec.actions).map Prod.fst).Nodup := by
    rw [match_names (masks_match hs hg)]; exact maskEnts_nodup (names_nodup hs.actions)
  have hmem : (e.1, (valueOf e.1 given).getD (ones (n :: (e.2.ent.shape ++ [m])))) ∈ masksOf n given spec.actions :=
    List.mem_filterMap.2 ⟨e, he, by rw [hm]; rfl⟩
  refine ⟨_, valueOf_mem hnod _ hmem, ?_, ?_⟩
  · intro y hy
    rw [hy]; rfl
  · intro hnone
    rw [hnone]
    show ones _ = _
    unfold ones
    rw [size_eq]
    rfl

theorem chosen_as {spec : Spec} {n : Nat} {given : Dict} (hd : (spec.internals.map Prod.fst).Nodup) (hg : GivenInternals spec n given) :
    InternalsAs spec given (chosen spec.internals given) := by
  intro e he x hx
  have hnod : ((chosen spec.internals given).map Prod.fst).Nodup := by
    rw [match_names (match_chosen hg.2)]; exact internalEnts_nodup hd
  exact valueOf_mem hnod (some e.1, x) (List.mem_filterMap.2 ⟨e, he, by rw [hx]; rfl⟩)

/-- A call in independent mode, with or without internal states. -/
theorem act_independent {spec : Spec} {net : Net} {flags : List Bool} {n : Nat} {states masks : Flat} {s : StatesIn} {form : Form}
    {internals : Dict} {ii : InternalsIn} (det : Bool) (hs : Separable spec) (hm : Match n spec.states states) (hg : GivenMasks spec n masks)
    (hgiven : Given n states masks s form) (hi : Supplied spec n internals ii form) (hnet : Answers spec net n) :
    ∃ r, act spec net flags ⟨s, ii, .one 0, true, det⟩ = (flags, .ok r) ∧ r.call.states = states ∧ r.call.masks = masksOf n masks spec.actions ∧
      r.call.internals = (if absent ii then [] else chosen spec.internals internals) ∧ r.call.parallel = [] ∧ r.call.deterministic = some det ∧
      ShowsActions n (net r.call).1 form r.actions ∧
      (if absent ii then r.internals = none else ∃ out, r.internals = some out ∧ ShowsInternals n (if spec.internals = [] then [] else (net r.call).2) form out) := by
  obtain ⟨f, st, hproc, hpop, hdrop⟩ := processed hs hm hg hgiven
  have h1 : form = .single → n = 1 := by
    intro h; subst h; exact given_single hs hm hg hgiven
  have hargs : checkArgs spec ⟨s, ii, .one 0, true, det⟩ = .ok () := by
    unfold checkArgs
    rw [if_pos rfl, if_neg (fun h => h rfl)]
    rcases hi with ⟨h, _⟩ | ⟨_, h⟩
    · rw [h]
      rw [if_neg (by simp)]
    · have : absent ii = false := by cases h <;> rfl
      rw [if_neg (by dsimp only; rw [this]; simp)]
  have hsts := toTensors_match false hm (names_nodup hs.states)
  have hmks := toTensors_match false (masks_match hs hg) (maskEnts_nodup (names_nodup hs.actions))
  have hacts : ∀ c, Match n spec.states c.states → toTensors (actionEnts spec.actions) false (net c).1 = .ok (net c).1 := by
    intro c hc
    apply toTensors_match false (hnet c hc).1
    have := names_nodup hs.actions
    show ((spec.actions.map (fun e => (e.1, e.2.ent))).map Prod.fst).Nodup
    rw [List.map_map]
    exact this
  have hints : ∀ c, Match n spec.states c.states → toTensors (internalEnts spec.internals) false (net c).2 = .ok (net c).2 := by
    intro c hc
    exact toTensors_match false (hnet c hc).2 (internalEnts_nodup hs.distinct)
  rcases hi with ⟨hnone, habs⟩ | ⟨hgi, hby⟩
  · subst habs
    let call : Call := ⟨states, [], masksOf n masks spec.actions, [], some det⟩
    obtain ⟨acts, hacts1, hacts2⟩ := actions_shown (st := f) hs.actions (hnet call hm).1 h1
    refine ⟨⟨acts, none, call⟩, ?_, rfl, rfl, rfl, rfl, rfl, hacts2, rfl⟩
    have hready : before spec flags ⟨s, .absent, .one 0, true, det⟩ = .ok ⟨⟨f, form.batched, n, form.iter⟩, [], .flat [], []⟩ := by
      unfold before
      rw [hargs, bind_ok]
      dsimp only
      rw [hproc, bind_ok]
      unfold modeArgs
      rw [if_pos rfl]
      unfold internalsArg
      dsimp only
      rw [internalsForm, bind_ok]
      cases form <;> rfl
    unfold act
    rw [hready]
    dsimp only
    congr 1
    unfold after tensors
    dsimp only
    rw [hpop]
    dsimp only
    rw [hdrop, bind_ok, hsts, bind_ok]
    rw [internalsTensor, if_neg (by simp [absent]), bind_ok, hmks, bind_ok, if_pos rfl]
    show ((outputs spec ⟨s, .absent, .one 0, true, det⟩ (net call)) >>= _) = _
    unfold outputs
    rw [hacts call hm, bind_ok, hnone, if_neg (by simp)]
    show returned spec ⟨s, .absent, .one 0, true, det⟩ ⟨f, form.batched, n, form.iter⟩ call ((net call).1, []) = _
    unfold returned
    rw [hacts1, bind_ok, if_neg (by simp [absent])]
    rfl
  · have habs : absent ii = false := by cases hby <;> rfl
    let call : Call := ⟨states, chosen spec.internals internals, masksOf n masks spec.actions, [], some det⟩
    obtain ⟨acts, hacts1, hacts2⟩ := actions_shown (st := f) hs.actions (hnet call hm).1 h1
    let ints : Flat := if spec.internals = [] then [] else (net call).2
    have hmi : Match n (internalSpec spec) ints := by
      show Match n (internalSpec spec) (if spec.internals = [] then [] else (net call).2)
      by_cases h0 : spec.internals = []
      · rw [if_pos h0]
        unfold internalSpec
        rw [h0]
        exact .nil
      · rw [if_neg h0]
        exact (hnet call hm).2
    obtain ⟨out, hout1, hout2⟩ := internals_shown (st := f) (ents := internalSpec spec) (by
      intro p hp
      obtain ⟨q, _, hq⟩ := List.mem_map.1 hp
      rw [← hq]
      exact nofun) hmi h1
    refine ⟨⟨acts, some out, call⟩, ?_, rfl, rfl, by rw [habs]; rfl, rfl, rfl, hacts2, by rw [habs]; exact ⟨out, rfl, hout2⟩⟩
    have hready : before spec flags ⟨s, ii, .one 0, true, det⟩ = .ok ⟨⟨f, form.batched, n, form.iter⟩, keyed internals, .flat [], []⟩ := by
      unfold before
      rw [hargs, bind_ok]
      dsimp only
      rw [hproc, bind_ok]
      unfold modeArgs
      rw [if_pos rfl]
      dsimp only
      rw [internals_processed hgi hby]
      rfl
    unfold act
    rw [hready]
    dsimp only
    congr 1
    unfold after tensors
    dsimp only
    rw [hpop]
    dsimp only
    rw [hdrop, bind_ok, hsts, bind_ok]
    rw [internalsTensor, if_pos (by rw [habs]; rfl), toTensors_given hgi, bind_ok, hmks, bind_ok, if_pos rfl]
    show ((outputs spec ⟨s, ii, .one 0, true, det⟩ (net call)) >>= _) = _
    have houts : outputs spec ⟨s, ii, .one 0, true, det⟩ (net call) = .ok ((net call).1, ints) := by
      unfold outputs
      rw [hacts call hm, bind_ok]
      by_cases h0 : spec.internals = []
      · rw [if_neg (by simp [h0])]
        show _ = Except.ok ((net call).1, if spec.internals = [] then [] else (net call).2)
        rw [if_pos h0]
        rfl
      · rw [if_pos (by simp [h0]), hints call hm]
        show _ = Except.ok ((net call).1, if spec.internals = [] then [] else (net call).2)
        rw [if_neg h0]
        rfl
    rw [houts, bind_ok]
    show returned spec ⟨s, ii, .one 0, true, det⟩ ⟨f, form.batched, n, form.iter⟩ call ((net call).1, ints) = _
    unfold returned
    rw [hacts1, bind_ok, if_pos (by rw [habs]; rfl), hout1]
    rfl

/-- Positions of free interactions. -/
theorem positions_free {flags : List Bool} {l : List Int} (h : Free flags l) (hl : l ≠ []) :
    positions flags.length l = .ok (l.map Int.toNat) ∧ (l.map Int.toNat).all (fun p => flags.getD p false) = true ∧
      l.all (fun p => 0 ≤ p && p < flags.length) = true := by
  have hlt : ∀ p ∈ l, 0 ≤ p ∧ p < flags.length := by
    intro p hp
    obtain ⟨h0, h1⟩ := h p hp
    have := (List.getElem?_eq_some_iff.1 h1).1
    exact ⟨h0, by omega⟩
  refine ⟨?_, ?_, ?_⟩
  · unfold positions
    rw [if_neg (by simp [hl])]
    apply mapM_ok
    intro p hp
    obtain ⟨h0, h1⟩ := hlt p hp
    rw [position, if_pos h0, if_pos h1]
  · rw [List.all_eq_true]
    intro q hq
    obtain ⟨p, hp, hpq⟩ := List.mem_map.1 hq
    rw [← hpq, List.getD_eq_getElem?_getD, (h p hp).2]
    rfl
  · rw [List.all_eq_true]
    intro p hp
    obtain ⟨h0, h1⟩ := hlt p hp
    rw [decide_eq_true h0, decide_eq_true h1]
    rfl

theorem mark_spec : ∀ (ps : List Nat) (flags : List Bool), (mark flags ps).length = flags.length ∧
    ∀ q : Nat, q < flags.length → (mark flags ps)[q]? = if q ∈ ps then some false else flags[q]?
  | [], flags => ⟨rfl, fun q _ => by rw [if_neg List.not_mem_nil]; rfl⟩
  | p :: r, flags => by
    obtain ⟨h1, h2⟩ := mark_spec r (flags.set p false)
    have hstep : mark flags (p :: r) = mark (flags.set p false) r := rfl
    rw [List.length_set] at h1 h2
    refine ⟨by rw [hstep, h1], fun q hq => ?_⟩
    rw [hstep, h2 q hq]
    by_cases hqr : q ∈ r
    · rw [if_pos hqr, if_pos (List.mem_cons_of_mem _ hqr)]
    · rw [if_neg hqr]
      by_cases hqp : q = p
      · subst hqp
        rw [if_pos List.mem_cons_self, List.getElem?_set_self hq]
      · rw [if_neg (by rw [List.mem_cons]; exact fun h => h.elim hqp hqr), List.getElem?_set_ne (Ne.symm hqp)]

theorem mark_waiting {flags : List Bool} {l : List Int} (h : ∀ p ∈ l, 0 ≤ p) : Waiting flags (mark flags (l.map Int.toNat)) l := by
  obtain ⟨h1, h2⟩ := mark_spec (l.map Int.toNat) flags
  refine ⟨h1, fun q hq => ?_⟩
  rw [h2 q hq]
  have : q ∈ l.map Int.toNat ↔ (q : Int) ∈ l := by
    rw [List.mem_map]
    constructor
    · rintro ⟨p, hp, hpq⟩
      have h0 := h p hp
      have : (q : Int) = p := by omega
      rw [this]; exact hp
    · intro hp
      exact ⟨_, hp, by omega⟩
  by_cases hm : (q : Int) ∈ l
  · rw [if_pos hm, if_pos (this.2 hm)]
  · rw [if_neg hm, if_neg (fun h => hm (this.1 h))]

/-- A call which is part of training. -/
theorem act_training {spec : Spec} {net : Net} {flags : List Bool} {n : Nat} {states masks : Flat} {s : StatesIn} {form : Form}
    {l : List Int} {p : ParallelIn} (det : Bool) (hs : Separable spec) (hm : Match n spec.states states) (hg : GivenMasks spec n masks)
    (hgiven : Given n states masks s form) (hp : Indices n l p form) (hfree : Free flags l) (hnet : AnswersActions spec net n) :
    ∃ r, act spec net flags ⟨s, .absent, p, false, det⟩ = (mark flags (l.map Int.toNat), .ok r) ∧ r.call.states = states ∧
      r.call.masks = masksOf n masks spec.actions ∧ r.call.internals = [] ∧ r.call.parallel = l ∧ r.call.deterministic = none ∧
      r.internals = none ∧ ShowsActions n (net r.call).1 form r.actions := by
  obtain ⟨f, st, hproc, hpop, hdrop⟩ := processed hs hm hg hgiven
  have h1 : form = .single → n = 1 := by
    intro h; subst h; exact given_single hs hm hg hgiven
  have hne : l ≠ [] := by cases hp <;> first | assumption | exact List.cons_ne_nil _ _
  obtain ⟨hpos, hall, hval⟩ := positions_free hfree hne
  have hpar : parallelArg ⟨f, form.batched, n, form.iter⟩ p = .ok (.flat l) := by
    cases hp with
    | single => rw [h1 rfl]; rfl
    | rows hl _ =>
      show (if l.length = n then _ else _) = _
      rw [if_pos hl]
    | columns hl _ =>
      show (if l.length = n then _ else _) = _
      rw [if_pos hl]
  have hready : before spec flags ⟨s, .absent, p, false, det⟩ = .ok ⟨⟨f, form.batched, n, form.iter⟩, [], .flat l, l.map Int.toNat⟩ := by
    unfold before
    show (processStates spec.states s >>= _) = _
    rw [hproc, bind_ok]
    unfold modeArgs
    rw [if_neg Bool.false_ne_true]
    dsimp only
    rw [hpar, bind_ok]
    show (positions flags.length l >>= _) = _
    rw [hpos, bind_ok, hall, check, if_pos rfl]
    rfl
  let call : Call := ⟨states, [], masksOf n masks spec.actions, l, none⟩
  obtain ⟨acts, hacts1, hacts2⟩ := actions_shown (st := f) hs.actions (hnet call hm) h1
  refine ⟨⟨acts, none, call⟩, ?_, rfl, rfl, rfl, rfl, rfl, rfl, hacts2⟩
  have hsts := toTensors_match false hm (names_nodup hs.states)
  have hmks := toTensors_match false (masks_match hs hg) (maskEnts_nodup (names_nodup hs.actions))
  have hacts : toTensors (actionEnts spec.actions) false (net call).1 = .ok (net call).1 := by
    apply toTensors_match false (hnet call hm)
    have := names_nodup hs.actions
    show ((spec.actions.map (fun e => (e.1, e.2.ent))).map Prod.fst).Nodup
    rw [List.map_map]
    exact this
  unfold act
  rw [hready]
  dsimp only
  congr 1
  unfold after tensors
  dsimp only
  rw [hpop]
  dsimp only
  rw [hdrop, bind_ok, hsts, bind_ok, internalsTensor, if_neg (by simp), bind_ok]
  rw [hmks, bind_ok, if_neg Bool.false_ne_true]
  show (((if l.all _ then _ else _) >>= _) >>= _) = _
  rw [if_pos hval, bind_ok]
  show ((outputs spec ⟨s, .absent, p, false, det⟩ (net call)) >>= _) = _
  unfold outputs
  rw [hacts, bind_ok, if_neg (by simp)]
  show returned spec ⟨s, .absent, p, false, det⟩ ⟨f, form.batched, n, form.iter⟩ call ((net call).1, []) = _
  unfold returned
  rw [hacts1, bind_ok, if_neg (by simp)]
  rfl

end Verif.Act
