import Verif.Props.Forms

/-!
# Feeding experience: lemmas on episodes, conversion and concatenation
-/

namespace Verif.Feed

theorem ends_tail {t : Nat} {ts : List Nat} (h : ∀ v, (t :: ts).getLast? = some v → v ≠ 0) : ∀ v, ts.getLast? = some v → v ≠ 0 := by
  intro v hv
  apply h v
  cases ts with
  | nil => exact absurd hv nofun
  | cons a r => rw [List.getLast?_cons_cons]; exact hv

/-- The episodes together are the whole. -/
theorem bounds_pieces {α : Type} (w : Nat) (l : List α) : ∀ (ts : List Nat) (index last : Nat), last ≤ index →
    l.length = (index + ts.length) * w → (∀ v, ts.getLast? = some v → v ≠ 0) → (ts = [] → last = index) →
    (bounds index last ts).flatMap (fun p => (l.drop (p.1 * w)).take ((p.2 - p.1) * w)) = l.drop (last * w)
  | [], index, last, _, hlen, _, hl => by
    have hl := hl rfl
    subst hl
    rw [List.length_nil, Nat.add_zero] at hlen
    rw [bounds, List.flatMap_nil, List.drop_eq_nil_of_le (Nat.le_of_eq hlen)]
  | t :: ts, index, last, hle, hlen, hend, _ => by
    have hlen' : l.length = (index + 1 + ts.length) * w := by
      rw [hlen, List.length_cons]; congr 1; omega
    rw [bounds]
    by_cases ht : t = 0
    · rw [if_pos ht]
      apply bounds_pieces w l ts (index + 1) last (Nat.le_succ_of_le hle) hlen' (ends_tail hend)
      intro hts
      subst hts
      exact absurd ht (hend t rfl)
    · rw [if_neg ht, List.flatMap_cons, bounds_pieces w l ts (index + 1) (index + 1) (Nat.le_refl _) hlen' (ends_tail hend) (fun _ => rfl)]
      dsimp only
      have : (index + 1) * w = last * w + (index + 1 - last) * w := by
        rw [← Nat.add_mul]; congr 1; omega
      rw [this, ← List.drop_drop, List.take_append_drop]

theorem bounds_range : ∀ (ts : List Nat) (index last : Nat), last ≤ index →
    ∀ p ∈ bounds index last ts, p.1 < p.2 ∧ p.2 ≤ index + ts.length
  | [], _, _, _ => nofun
  | t :: ts, index, last, hle => by
    intro p hp
    rw [bounds] at hp
    by_cases ht : t = 0
    · rw [if_pos ht] at hp
      have := bounds_range ts (index + 1) last (Nat.le_succ_of_le hle) p hp
      rw [List.length_cons]
      omega
    · rw [if_neg ht] at hp
      rw [List.length_cons]
      rcases List.mem_cons.1 hp with e | hp
      · rw [e]; dsimp only; omega
      · have := bounds_range ts (index + 1) (index + 1) (Nat.le_refl _) p hp
        omega

/-- Only the last time step of each episode is terminal. -/
theorem bounds_episode (l : List Nat) : ∀ (ts : List Nat) (index last : Nat), last ≤ index →
    l.drop last = List.replicate (index - last) 0 ++ ts →
    ∀ p ∈ bounds index last ts, ∃ z v, v ≠ 0 ∧ (l.drop p.1).take (p.2 - p.1) = List.replicate z 0 ++ [v]
  | [], _, _, _, _ => nofun
  | t :: ts, index, last, hle, hl => by
    intro p hp
    rw [bounds] at hp
    have hsub : index + 1 - last = (index - last) + 1 := by omega
    by_cases ht : t = 0
    · rw [if_pos ht] at hp
      apply bounds_episode l ts (index + 1) last (Nat.le_succ_of_le hle) ?_ p hp
      rw [hl, hsub, List.replicate_succ', ht, List.append_assoc]
      rfl
    · rw [if_neg ht] at hp
      have hlen : (List.replicate (index - last) 0).length = index - last := List.length_replicate
      rcases List.mem_cons.1 hp with e | hp
      · refine ⟨index - last, t, ht, ?_⟩
        rw [e]
        dsimp only
        rw [hl, hsub, List.take_append, hlen, List.take_of_length_le (by rw [hlen]; omega), Nat.add_sub_cancel_left]
        rfl
      · apply bounds_episode l ts (index + 1) (index + 1) (Nat.le_refl _) ?_ p hp
        have : l.drop (index + 1) = (l.drop last).drop (index + 1 - last) := by
          rw [List.drop_drop]; congr 1; omega
        rw [this, hl, hsub, Nat.sub_self, List.drop_append, hlen, List.drop_eq_nil_of_le (by rw [hlen]; omega), Nat.add_sub_cancel_left]
        rfl

theorem valueOf_mem {κ α : Type} [DecidableEq κ] : ∀ {d : List (κ × α)}, (d.map Prod.fst).Nodup → ∀ e ∈ d, valueOf e.1 d = some e.2
  | [], _ => nofun
  | a :: r, hn => by
    intro e he
    rw [List.map_cons, List.nodup_cons] at hn
    unfold valueOf
    rw [List.find?_cons]
    by_cases ha : a.1 = e.1
    · rcases List.mem_cons.1 he with e' | he
      · rw [e']; simp
      · exact absurd (ha ▸ List.mem_map.2 ⟨e, he, rfl⟩) hn.1
    · rw [decide_eq_false ha]
      rcases List.mem_cons.1 he with e' | he
      · exact absurd (by rw [e']) ha
      · exact valueOf_mem hn.2 e he

theorem match_names {n : Nat} {ents : List (Key × Ent)} {f : Flat} (h : Match n ents f) : f.map Prod.fst = ents.map Prod.fst := by
  induction h with
  | nil => rfl
  | cons _ _ _ _ ih => rw [List.map_cons, List.map_cons, ih]

theorem match_rows {n : Nat} {ents : List (Key × Ent)} {f : Flat} (h : Match n ents f) : ∀ e ∈ f, e.2.shape.head? = some n := by
  induction h with
  | nil => nofun
  | cons hs _ _ _ ih =>
    intro e he
    rcases List.mem_cons.1 he with e' | he
    · rw [e']; dsimp only; rw [hs]; rfl
    · exact ih e he

theorem match_mem {n : Nat} {ents : List (Key × Ent)} {f : Flat} (h : Match n ents f) :
    ∀ e ∈ ents, ∃ x, (e.1, x) ∈ f ∧ x.shape = n :: e.2.shape ∧ Proper x := by
  induction h with
  | nil => nofun
  | cons hs hp _ _ ih =>
    intro e he
    rcases List.mem_cons.1 he with e' | he
    · subst e'; exact ⟨_, List.mem_cons_self, hs, hp⟩
    · obtain ⟨x, hx, hr⟩ := ih e he
      exact ⟨x, List.mem_cons_of_mem _ hx, hr⟩

theorem names_nodup {α : Type} {l : List (Key × α)} (h : Names l) : (l.map Prod.fst).Nodup := by
  rcases h with ⟨e, h⟩ | ⟨_, _, h⟩
  · rw [h]; exact List.nodup_cons.2 ⟨nofun, List.nodup_nil⟩
  · exact h

theorem toTensor_slice {n a b : Nat} {e : Ent} {x : Nd} (hs : x.shape = n :: e.shape) (hv : ∀ v ∈ x.data, e.valid v = true) :
    toTensor e (slice a b x) = .ok (slice a b x) := by
  have h1 : (slice a b x).shape.tail = e.shape := by
    show x.shape.tail = e.shape
    rw [hs]; rfl
  have h2 : (slice a b x).data.all e.valid = true := by
    rw [List.all_eq_true]
    intro v h
    exact hv v (List.mem_of_mem_drop (List.mem_of_mem_take h))
  rw [toTensor, if_pos h1, if_pos h2]

theorem mapM_slices {n a b : Nat} {F : Flat} {ents : List (Key × Ent)} {f : Flat} (h : Match n ents f)
    (hF : ∀ e ∈ f, valueOf e.1 F = some (slice a b e.2)) :
    ents.mapM (fun e => do
      let x ← found .assertion (lookup e.1 F)
      let y ← toTensor e.2 x
      pure (e.1, y)) = .ok (sliceAll a b f) := by
  induction h with
  | nil => rfl
  | @cons k e x r f hs _ hv _ ih =>
    have hx := hF (k, x) List.mem_cons_self
    rw [List.mapM_cons]
    dsimp only
    rw [lookup_eq, hx, found, bind_ok, toTensor_slice hs hv, bind_ok, ih (fun e he => hF e (List.mem_cons_of_mem _ he))]
    rfl

theorem toTensors_slices {n a b : Nat} {ents : List (Key × Ent)} {f : Flat} (r : Bool) (h : Match n ents f) (hn : (ents.map Prod.fst).Nodup) :
    toTensors ents r (sliceAll a b f) = .ok (sliceAll a b f) := by
  have hnames : (sliceAll a b f).map Prod.fst = ents.map Prod.fst := by
    rw [sliceAll, List.map_map]; exact match_names h
  have hF : ∀ e ∈ f, valueOf e.1 (sliceAll a b f) = some (slice a b e.2) := by
    intro e he
    have := valueOf_mem (by rw [match_names h]; exact hn) e he
    exact valueOf_map (fun e => slice a b e.2) this
  have hall1 : (sliceAll a b f).all (fun e => (ents.map Prod.fst).contains e.1) = true := by
    rw [List.all_eq_true]
    intro e he
    rw [List.contains_iff_mem, ← hnames]
    exact List.mem_map.2 ⟨e, he, rfl⟩
  have hall2 : ents.all (fun e => ((sliceAll a b f).map Prod.fst).contains e.1) = true := by
    rw [List.all_eq_true]
    intro e he
    rw [List.contains_iff_mem, hnames]
    exact List.mem_map.2 ⟨e, he, rfl⟩
  rw [toTensors, hall1, hall2, Bool.and_self, Bool.or_true, check, if_pos rfl, bind_ok]
  exact mapM_slices h hF

theorem maskEnts_none {actions : List (Key × ActEnt)} (h : ∀ e ∈ actions, e.2.mask = none) : maskEnts actions = [] := by
  unfold maskEnts
  rw [List.filterMap_eq_nil_iff]
  intro e he
  rw [h e he]
  rfl

theorem popMasks_none (n : Nat) (st : Flat) : ∀ (actions : List (Key × ActEnt)), (∀ e ∈ actions, e.2.mask = none) →
    popMasks n actions st = ([], st)
  | [], _ => rfl
  | (k, e) :: r, h => by
    have he : e.mask = none := h (k, e) List.mem_cons_self
    rw [popMasks, he]
    exact popMasks_none n st r (fun e he => h e (List.mem_cons_of_mem _ he))

/-- The initial internal states for every time step. -/
def wholeInternals (n : Nat) (internals : List (String × Nd)) : Flat :=
  internals.map (fun e => (some e.1, repeatRows n e.2))

theorem flatten_replicate_length (n : Nat) (l : List Rat) : (List.replicate n l).flatten.length = n * l.length := by
  induction n with
  | zero => rw [Nat.zero_mul]; rfl
  | succ n ih => rw [List.replicate_succ, List.flatten_cons, List.length_append, ih, Nat.succ_mul, Nat.add_comm]

theorem match_internals (n : Nat) : ∀ (internals : List (String × Nd)), (∀ e ∈ internals, Proper e.2) →
    Match n (internalEnts internals) (wholeInternals n internals)
  | [], _ => .nil
  | (k, x) :: r, h => by
    refine .cons rfl ?_ (fun _ _ => rfl) (match_internals n r (fun e he => h e (List.mem_cons_of_mem _ he)))
    show (List.replicate n x.data).flatten.length = n * count x.shape
    have : x.data.length = count x.shape := h (k, x) List.mem_cons_self
    rw [flatten_replicate_length, this]

theorem feed_ok {spec : Spec} {p : Batch} : ∀ {bs : List (Nat × Nat)},
    (∀ q ∈ bs, convert spec (cut q.1 q.2 p) = .ok (cut q.1 q.2 p)) →
    feed spec p bs = (bs.map (fun q => cut q.1 q.2 p), none)
  | [], _ => rfl
  | (a, b) :: r, h => by
    rw [feed, h (a, b) List.mem_cons_self]
    dsimp only
    rw [feed_ok (fun q hq => h q (List.mem_cons_of_mem _ hq))]
    rfl

/-- All time steps of a trace as arrays. -/
def wholeOf (spec : Spec) (t : Trace) (n : Nat) : Batch :=
  ⟨t.states, wholeInternals n spec.internals, [], t.actions, t.terminal, t.reward⟩

theorem internalEnts_nodup {internals : List (String × Nd)} (hd : (internals.map Prod.fst).Nodup) :
    ((internalEnts internals).map Prod.fst).Nodup := by
  unfold internalEnts
  rw [List.map_map]
  have : (Prod.fst ∘ fun e : String × Nd => ((some e.1 : Key), (⟨e.2.shape, fun _ => true⟩ : Ent))) = some ∘ Prod.fst := rfl
  rw [this, ← List.map_map]
  unfold List.Nodup at hd ⊢
  rw [List.pairwise_map]
  exact hd.imp (fun hne he => hne (Option.some.inj he))

theorem internals_nodup {spec : Spec} (h : Sound spec) : ((internalEnts spec.internals).map Prod.fst).Nodup :=
  internalEnts_nodup h.distinct

theorem convert_cut {spec : Spec} {t : Trace} {n : Nat} (hs : Sound spec) (ht : Fits spec t n) (a b : Nat) :
    convert spec (cut a b (wholeOf spec t n)) = .ok (cut a b (wholeOf spec t n)) := by
  have h1 := toTensors_slices (a := a) (b := b) false ht.states (names_nodup hs.states)
  have h2 := toTensors_slices (a := a) (b := b) true (match_internals n spec.internals hs.initial) (internals_nodup hs)
  have h4 : toTensors (actionEnts spec.actions) false (sliceAll a b t.actions) = .ok (sliceAll a b t.actions) := by
    apply toTensors_slices false ht.actions
    rw [List.map_map]
    exact names_nodup hs.actions
  unfold convert
  show (do
    let states ← toTensors spec.states false (sliceAll a b t.states)
    let internals ← toTensors (internalEnts spec.internals) true (sliceAll a b (wholeInternals n spec.internals))
    let masks ← toTensors (maskEnts spec.actions) false (sliceAll a b [])
    let actions ← toTensors (actionEnts spec.actions) false (sliceAll a b t.actions)
    pure (⟨states, internals, masks, actions, _, _⟩ : Batch)) = _
  rw [h1, bind_ok, h2, bind_ok, maskEnts_none hs.masks, h4]
  rfl

theorem namedPart_keyed : ∀ {f : Flat}, (∀ p ∈ f, p.1 ≠ none) → keyed (namedPart f) = f
  | [], _ => rfl
  | (none, x) :: r, h => absurd rfl (h (none, x) List.mem_cons_self)
  | (some k, x) :: r, h => by
    have := namedPart_keyed (f := r) (fun p hp => h p (List.mem_cons_of_mem _ hp))
    show (some k, x) :: keyed (namedPart r) = _
    rw [this]

theorem statesForm_named {f : Flat} (h : ∀ p ∈ f, p.1 ≠ none) : statesForm f = .dict (namedPart f) := by
  unfold statesForm
  split
  · exact absurd rfl (h _ List.mem_cons_self)
  · rfl

theorem actionsForm_named {f : Flat} (h : ∀ p ∈ f, p.1 ≠ none) : actionsForm f = .dict (namedPart f) := by
  unfold actionsForm
  split
  · exact absurd rfl (h _ List.mem_cons_self)
  · rfl

theorem match_named {n : Nat} {ents : List (Key × Ent)} {f : Flat} (h : Match n ents f) (hk : ∀ p ∈ ents, p.1 ≠ none) :
    ∀ p ∈ f, p.1 ≠ none := by
  intro p hp
  have : p.1 ∈ ents.map Prod.fst := by rw [← match_names h]; exact List.mem_map.2 ⟨p, hp, rfl⟩
  obtain ⟨e, he, hpe⟩ := List.mem_map.1 this
  rw [← hpe]
  exact hk e he

theorem unnamed_id {f : Flat} (h : ∀ p ∈ f, p.1 ≠ some "action") : unnamed f = f := by
  unfold unnamed
  split
  · exact absurd rfl (h _ List.mem_cons_self)
  · rfl

theorem match_single {n : Nat} {e : Ent} {f : Flat} (h : Match n [(none, e)] f) : ∃ x, f = [(none, x)] ∧ x.shape = n :: e.shape := by
  cases h with
  | cons hs _ _ hr => cases hr; exact ⟨_, rfl, hs⟩

theorem single_named {α : Type} {l : List (Key × α)} (h : ∀ p ∈ l, p.1 ≠ none) : single l = false := by
  unfold single
  split
  · exact absurd rfl (h _ List.mem_cons_self)
  · rfl

/-- States of a trace are processed to themselves. -/
theorem states_of_trace {spec : Spec} {t : Trace} {n : Nat} (hs : Sound spec) (ht : Fits spec t n) (hn : n ≠ 0) :
    (Unnamed spec.states ∧ processStates spec.states (statesForm t.states) = .ok ⟨t.states, true, n, some true⟩ ∧
      dropName spec.states t.states = .ok t.states) ∨
    (¬ Unnamed spec.states ∧ processStates spec.states (statesForm t.states) = .ok ⟨t.states, true, n, some false⟩ ∧
      dropName spec.states t.states = .ok t.states) := by
  have hm := ht.states
  rcases hs.states with ⟨e, he⟩ | ⟨hne, hnamed, _⟩
  · left
    rw [he] at hm
    obtain ⟨x, hf, hx⟩ := match_single hm
    refine ⟨⟨e, he⟩, ?_, ?_⟩
    · rw [he, hf]
      exact (Verif.Props.Forms.array_form e x).1 n hx
    · rw [he, hf]; rfl
  · right
    have hf := match_named hm hnamed
    generalize t.states = st at hm hf ⊢
    refine ⟨?_, ?_, ?_⟩
    · rintro ⟨e, he⟩
      rw [he] at hnamed
      exact hnamed _ List.mem_cons_self rfl
    · rw [statesForm_named hf]
      cases hsp : spec.states with
      | nil => exact absurd hsp hne
      | cons ke r =>
        obtain ⟨k, e⟩ := ke
        cases k with
        | none => exact absurd rfl (hnamed (none, e) (by rw [hsp]; exact List.mem_cons_self))
        | some k =>
          rw [hsp] at hm
          cases hm with
          | cons hsx hp hv hr =>
            rename_i x f
            have hall : ∀ p ∈ namedPart ((some k, x) :: f), p.2.shape.head? = some n := by
              intro p hp
              obtain ⟨q, hq, hqp⟩ := List.mem_filterMap.1 hp
              have := match_rows (Match.cons hsx ‹_› hv hr) q hq
              obtain ⟨qk, qx⟩ := q
              cases qk with
              | none => exact absurd hqp nofun
              | some c => rw [← Option.some.inj hqp]; exact this
            have := Verif.Props.Forms.dict_form ((some k, e) :: r) (namedPart ((some k, x) :: f)) k e x n ⟨some k, r, rfl, rfl⟩
              (by unfold valueOf namedPart; simp) hsx hn hall
            rw [this]
            have hk := namedPart_keyed (f := (some k, x) :: f) hf
            unfold keyed at hk
            rw [hk]
    · rw [dropName, single_named hnamed]
      rfl

/-- Actions of a trace are taken as they are. -/
theorem actions_given {spec : Spec} {t : Trace} {n : Nat} (hnames : Names spec.actions) (hname : ∀ e ∈ spec.actions, e.1 ≠ some "action")
    (ht : Fits spec t n) (iter : Bool)
    (hi : iter = true → Unnamed spec.actions) : actionsOf iter (actionsForm t.actions) = .ok t.actions := by
  have hm := ht.actions
  rcases hnames with ⟨e, he⟩ | ⟨hne, hnamed, _⟩
  · rw [he] at hm
    obtain ⟨x, hf, _⟩ := match_single hm
    rw [hf]
    rfl
  · have hf : ∀ p ∈ t.actions, p.1 ≠ none := match_named hm (by
      intro p hp
      obtain ⟨q, hq, hqp⟩ := List.mem_map.1 hp
      rw [← hqp]; exact hnamed q hq)
    have hiter : iter = false := by
      cases iter with
      | false => rfl
      | true =>
        obtain ⟨e, he⟩ := hi rfl
        rw [he] at hnamed
        exact absurd rfl (hnamed _ List.mem_cons_self)
    rw [actionsForm_named hf, hiter, actionsOf, if_neg (by decide), namedPart_keyed hf, unnamed_id]
    intro p hp
    have : p.1 ∈ (spec.actions.map (fun e => (e.1, e.2.ent))).map Prod.fst := by rw [← match_names hm]; exact List.mem_map.2 ⟨p, hp, rfl⟩
    rw [List.map_map] at this
    obtain ⟨q, hq, hqp⟩ := List.mem_map.1 this
    rw [← hqp]
    exact hname q hq

/-- Actions of a trace are taken as they are. -/
theorem actions_of_trace {spec : Spec} {t : Trace} {n : Nat} (hs : Sound spec) (ht : Fits spec t n) (iter : Bool)
    (hi : iter = true → Unnamed spec.actions) : actionsOf iter (actionsForm t.actions) = .ok t.actions :=
  actions_given hs.actions hs.name ht iter hi

theorem keyed_repeat (n : Nat) (internals : List (String × Nd)) :
    keyed (internals.map (fun e => (e.1, repeatRows n e.2))) = wholeInternals n internals := by
  unfold keyed wholeInternals
  rw [List.map_map]
  rfl

theorem fits_last {spec : Spec} {t : Trace} {n : Nat} (h : Fits spec t n) : n ≠ 0 ∧ ∀ v, t.terminal.getLast? = some v → v ≠ 0 := by
  obtain ⟨l, v, hv, hl⟩ := h.complete
  have hn := h.terminal
  rw [hl] at hn
  constructor
  · rw [← hn, List.length_append, List.length_singleton]; exact Nat.succ_ne_zero _
  · intro u hu
    rw [hl, List.getLast?_append, List.getLast?_singleton] at hu
    have : v = u := Option.some.inj hu
    rw [← this]; exact hv

theorem prepare_steps {spec : Spec} {a : Args} {st st' st'' act int masks : Flat} {n : Nat} {i : Bool} {terminal : List Nat} {reward : List Rat}
    (hst : processStates spec.states a.states = .ok ⟨st, true, n, some i⟩)
    (hi : internalsOf spec i n a.internals = .ok int) (ha : actionsOf i a.actions = .ok act)
    (hint : checkRows n int = .ok ()) (hact : checkRows n act = .ok ())
    (hterm : (terminal.length == n) = true) (hrew : (reward.length == n) = true)
    (hm : popMasks n spec.actions st = (masks, st')) (hdr : dropName spec.states st' = .ok st'')
    (hempty : terminal.isEmpty = false) (hl0 : (terminal.getLast? != some 0) = true)
    (ht : a.terminal = .many terminal := by rfl) (hr : a.reward = .many reward := by rfl) :
    prepare spec false a = .ok ⟨st'', int, masks, act, terminal, reward⟩ := by
  unfold prepare
  rw [hst, ht, hr]
  have hiter : ((some i : Option Bool) == some true) = i := by cases i <;> rfl
  show (do
    let internals ← internalsOf spec ((some i : Option Bool) == some true) n a.internals
    let actions ← actionsOf ((some i : Option Bool) == some true) a.actions
    checkRows n internals
    checkRows n actions
    check (terminal.length == n) .value
    check (reward.length == n) .value
    let states ← dropName spec.states (popMasks n spec.actions st).2
    check (!terminal.isEmpty) .index
    check (terminal.getLast? != some 0) .full
    pure (⟨states, internals, (popMasks n spec.actions st).1, actions, terminal, reward⟩ : Batch)) = _
  rw [hiter, hi, bind_ok, ha, bind_ok, hint, bind_ok, hact, bind_ok, hterm, hrew, hm, hempty, hl0]
  show (do
    let states ← dropName spec.states st'
    pure (⟨states, int, masks, act, terminal, reward⟩ : Batch)) = _
  rw [hdr]
  rfl

theorem prepare_ok {spec : Spec} {t : Trace} {n : Nat} (hs : Sound spec) (ht : Fits spec t n) :
    prepare spec false (argsOf t) = .ok (wholeOf spec t n) := by
  obtain ⟨hn, hlast⟩ := fits_last ht
  have hint : checkRows n (wholeInternals n spec.internals) = .ok () :=
    checkRows_ok _ _ (match_rows (match_internals n spec.internals hs.initial))
  have hact : checkRows n t.actions = .ok () := checkRows_ok _ _ (match_rows ht.actions)
  have hempty : t.terminal.isEmpty = false := by
    cases hte : t.terminal with
    | nil => exact absurd (by rw [← ht.terminal, hte]; rfl) hn
    | cons => rfl
  have hl0 : (t.terminal.getLast? != some 0) = true := by
    rw [bne_iff_ne]
    intro h
    exact hlast 0 h rfl
  have hterm : (t.terminal.length == n) = true := by rw [ht.terminal]; exact beq_self_eq_true n
  have hrew : (t.reward.length == n) = true := by rw [ht.reward]; exact beq_self_eq_true n
  rcases states_of_trace hs ht hn with ⟨hu, hst, hdr⟩ | ⟨hu, hst, hdr⟩
  · have ha := actions_of_trace hs ht true (fun _ => hs.both hu)
    have hi : internalsOf spec true n .absent = .ok (wholeInternals n spec.internals) := by
      rw [internalsOf, if_pos rfl, keyed_repeat]
    exact prepare_steps hst hi ha hint hact hterm hrew (popMasks_none n t.states spec.actions hs.masks) hdr hempty hl0
  · have ha := actions_of_trace hs ht false nofun
    have hi : internalsOf spec false n .absent = .ok (wholeInternals n spec.internals) := by
      have hnil : spec.internals = [] := hs.internals.resolve_right hu
      rw [hnil]
      unfold internalsOf
      rw [hnil]
      rfl
    exact prepare_steps hst hi ha hint hact hterm hrew (popMasks_none n t.states spec.actions hs.masks) hdr hempty hl0

end Verif.Feed
