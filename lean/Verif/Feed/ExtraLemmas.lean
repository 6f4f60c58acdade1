import Verif.Feed.JoinLemmas

/-!
# Feeding experience: lemmas for arbitrary arguments
-/

namespace Verif.Feed

theorem bind_eq_ok {α β : Type} {x : Except Err α} {f : α → Except Err β} {b : β} (h : (x >>= f) = .ok b) :
    ∃ a, x = .ok a ∧ f a = .ok b := by
  cases x with
  | error e => exact absurd h nofun
  | ok a => exact ⟨a, rfl, h⟩

theorem check_ok {c : Bool} {e : Err} {u : Unit} (h : check c e = .ok u) : c = true := by
  unfold check at h
  cases c with
  | true => rfl
  | false => exact absurd h nofun

/-- What is known after a successful preparation. -/
theorem prepare_inv {spec : Spec} {mid : Bool} {a : Args} {p : Batch} (h : prepare spec mid a = .ok p) :
    mid = false ∧ ∃ inp, processStates spec.states a.states = .ok inp ∧ scalars inp.batched a.terminal = .ok p.terminal ∧
      scalars inp.batched a.reward = .ok p.reward ∧ p.terminal.length = inp.num ∧ p.reward.length = inp.num ∧
      p.masks = (popMasks inp.num spec.actions inp.states).1 ∧ p.terminal ≠ [] ∧ p.terminal.getLast? ≠ some 0 ∧
      ∃ act, actionsOf (inp.iter == some true) a.actions = .ok act ∧ p.actions = expandUnless inp.batched act ∧
        checkRows inp.num p.actions = .ok () := by
  unfold prepare at h
  obtain ⟨u, hu, h⟩ := bind_eq_ok h
  obtain ⟨inp, hinp, h⟩ := bind_eq_ok h
  obtain ⟨int, hint, h⟩ := bind_eq_ok h
  obtain ⟨act, hact, h⟩ := bind_eq_ok h
  obtain ⟨u1, h1, h⟩ := bind_eq_ok h
  obtain ⟨u2, h2, h⟩ := bind_eq_ok h
  obtain ⟨ter, hter, h⟩ := bind_eq_ok h
  obtain ⟨rew, hrew, h⟩ := bind_eq_ok h
  obtain ⟨u3, h3, h⟩ := bind_eq_ok h
  obtain ⟨u4, h4, h⟩ := bind_eq_ok h
  obtain ⟨st, hst, h⟩ := bind_eq_ok h
  obtain ⟨u5, h5, h⟩ := bind_eq_ok h
  obtain ⟨u6, h6, h⟩ := bind_eq_ok h
  have hp := Except.ok.inj h
  have hmid := check_ok hu
  rw [Bool.not_eq_true'] at hmid
  refine ⟨hmid, inp, hinp, ?_⟩
  subst hp
  refine ⟨hter, hrew, beq_iff_eq.1 (check_ok h3), beq_iff_eq.1 (check_ok h4), rfl, ?_, ?_, act, hact, rfl, h2⟩
  · intro he
    have := check_ok h5
    rw [show ter = [] from he] at this
    exact absurd this nofun
  · exact bne_iff_ne.1 (check_ok h6)

theorem experience_fed {spec : Spec} {mid : Bool} {a : Args} :
    (experience spec mid a).1 = [] ∨ ∃ p, prepare spec mid a = .ok p ∧
      experience spec mid a = feed spec p (bounds 0 0 p.terminal) := by
  unfold experience
  cases hp : prepare spec mid a with
  | error e => exact .inl rfl
  | ok p => exact .inr ⟨p, rfl, rfl⟩

theorem convert_inv {spec : Spec} {p b : Batch} (h : convert spec p = .ok b) :
    b.terminal = p.terminal ∧ b.reward = p.reward ∧ toTensors (maskEnts spec.actions) false p.masks = .ok b.masks := by
  unfold convert at h
  obtain ⟨st, _, h⟩ := bind_eq_ok h
  obtain ⟨int, _, h⟩ := bind_eq_ok h
  obtain ⟨masks, hm, h⟩ := bind_eq_ok h
  obtain ⟨act, _, h⟩ := bind_eq_ok h
  have := Except.ok.inj h
  subst this
  exact ⟨rfl, rfl, hm⟩

theorem feed_mem {spec : Spec} {p : Batch} : ∀ {bs : List (Nat × Nat)}, ∀ b ∈ (feed spec p bs).1, ∃ q ∈ bs, convert spec (cut q.1 q.2 p) = .ok b
  | [], _, h => absurd h List.not_mem_nil
  | (x, y) :: r, b, h => by
    rw [feed] at h
    cases hc : convert spec (cut x y p) with
    | error e => rw [hc] at h; exact absurd h List.not_mem_nil
    | ok c =>
      rw [hc] at h
      dsimp only at h
      rcases List.mem_cons.1 h with e | h
      · exact ⟨(x, y), List.mem_cons_self, by rw [e]; exact hc⟩
      · obtain ⟨q, hq, hqc⟩ := feed_mem b h
        exact ⟨q, List.mem_cons_of_mem _ hq, hqc⟩

theorem allDicts_length : ∀ {ds : List (Option Dict)} {l : List Dict}, allDicts ds = .ok l → l.length = ds.length
  | [], l, hl => by rw [← Except.ok.inj hl]; rfl
  | none :: r, l, hl => absurd hl nofun
  | some c :: r, l, hl => by
    rw [allDicts] at hl
    obtain ⟨m, hm, hl⟩ := bind_eq_ok hl
    rw [← Except.ok.inj hl, List.length_cons, List.length_cons, allDicts_length hm]

theorem counters_eq : ∀ (fed : List Batch) (t e : Nat),
    counters t e fed = (t + (fed.flatMap Batch.terminal).length, e + fed.length)
  | [], t, e => rfl
  | b :: r, t, e => by
    rw [counters, counters_eq r, List.flatMap_cons, List.length_append, List.length_cons, Nat.add_assoc, Nat.add_assoc, Nat.add_comm 1]

theorem episodes_count : ∀ (fed : List Batch), Episodes fed → ((fed.flatMap Batch.terminal).filter (· ≠ 0)).length = fed.length
  | [], _ => rfl
  | b :: r, h => by
    obtain ⟨z, v, hv, hb⟩ := h b List.mem_cons_self
    have ih := episodes_count r (fun c hc => h c (List.mem_cons_of_mem _ hc))
    have hz : (List.replicate z 0).filter (fun x => decide (x ≠ 0)) = [] := by
      rw [List.filter_eq_nil_iff]
      intro a ha
      rw [(List.mem_replicate.1 ha).2]
      decide
    rw [List.flatMap_cons, List.filter_append, List.length_append, ih, hb, List.filter_append, hz, List.nil_append,
      List.filter_cons_of_pos (p := fun x => decide (x ≠ 0)) (decide_eq_true hv), List.filter_nil, List.length_singleton, List.length_cons, Nat.add_comm]

/-- The arrays of a name in all batches of a successful feeding. -/
theorem feed_column {spec : Spec} {p : Batch} {part : Batch → Flat} {k : Key} {x : Nd} : ∀ {bs : List (Nat × Nat)} {fed : List Batch},
    (∀ q ∈ bs, q.2 ≤ p.terminal.length) → feed spec p bs = (fed, none) →
    (∀ (q : Nat × Nat) (b : Batch), convert spec (cut q.1 q.2 p) = .ok b → valueOf k (part b) = some (slice q.1 q.2 x)) →
    column part k fed = bs.map (fun q => slice q.1 q.2 x) ∧ fed.map (fun b => b.terminal.length) = bs.map (fun q => q.2 - q.1)
  | [], fed, _, h, _ => by
    have := (Prod.mk.inj h).1
    rw [← this]
    exact ⟨rfl, rfl⟩
  | (c, d) :: r, fed, hle, h, hpart => by
    rw [feed] at h
    cases hc : convert spec (cut c d p) with
    | error e => rw [hc] at h; exact absurd (Prod.mk.inj h).2 nofun
    | ok b =>
      rw [hc] at h
      dsimp only at h
      obtain ⟨h1, h2⟩ := Prod.mk.inj h
      obtain ⟨i1, i2⟩ := feed_column (fun q hq => hle q (List.mem_cons_of_mem _ hq))
        (show feed spec p r = ((feed spec p r).1, none) by rw [← h2]) hpart
      rw [← h1]
      constructor
      · unfold column at i1 ⊢
        rw [List.filterMap_cons_some (f := fun b => valueOf k (part b)) (hpart (c, d) b hc), i1, List.map_cons]
      · rw [List.map_cons, List.map_cons, i2, (convert_inv hc).1]
        congr 1
        exact take_length (hle (c, d) List.mem_cons_self)

/-- Conversion keeps a single mask. -/
theorem toTensors_single {k : Key} {e : Ent} {x : Nd} {r : Bool} {f : Flat} (h : toTensors [(k, e)] r [(k, x)] = .ok f) :
    f = [(k, x)] ∧ x.shape.tail = e.shape := by
  unfold toTensors at h
  obtain ⟨_, _, h⟩ := bind_eq_ok h
  rw [List.mapM_cons] at h
  obtain ⟨b, hb, h⟩ := bind_eq_ok h
  have hl : lookup k [(k, x)] = some x := if_pos rfl
  rw [hl, found, bind_ok] at hb
  obtain ⟨y, hy, hb⟩ := bind_eq_ok hb
  unfold toTensor at hy
  split at hy
  · rename_i hs
    split at hy
    · rw [← Except.ok.inj h, ← Except.ok.inj hb, ← Except.ok.inj hy]
      exact ⟨rfl, hs⟩
    · exact absurd hy nofun
  · exact absurd hy nofun

/-- The state arrays of a dictionary given as a batch. -/
theorem processStates_dict_batched {spec : List (Key × Ent)} {d : Dict} {inp : Input} (h : processStates spec (.dict d) = .ok inp)
    (hb : inp.batched = true) : inp.states = keyed d ∧ (inp.iter == some true) = false := by
  unfold processStates at h
  obtain ⟨i, hi, h⟩ := bind_eq_ok h
  obtain ⟨u, _, h⟩ := bind_eq_ok h
  have := Except.ok.inj h
  subst this
  unfold processForm at hi
  dsimp only at hi
  split at hi
  · unfold processDict at hi
    split at hi
    · exact absurd hi nofun
    · split at hi
      · rw [← Except.ok.inj hi] at hb; exact absurd hb nofun
      · split at hi
        · split at hi
          · exact absurd hi nofun
          · split at hi
            · exact absurd hi nofun
            · rw [← Except.ok.inj hi]; exact ⟨rfl, rfl⟩
        · exact absurd hi nofun
  · exact absurd hi nofun

theorem valueOf_keyed (k : String) : ∀ (d : Dict), valueOf (some k) (keyed d) = valueOf k d
  | [] => rfl
  | (k', x) :: r => by
    have ih := valueOf_keyed k r
    unfold valueOf keyed at ih ⊢
    rw [List.map_cons, List.find?_cons, List.find?_cons]
    by_cases h : k' = k
    · simp [h]
    · have h' : (some k' : Key) ≠ some k := fun e => h (Option.some.inj e)
      rw [decide_eq_false h, decide_eq_false h']
      exact ih

/-- The mask used for the only action of an agent. -/
theorem mask_used {spec : Spec} {mid : Bool} {a : Args} {d : Dict} {ts : List Nat} {fed : List Batch} {k : Key} {e : ActEnt} {m : Nat} {x : Nd}
    (hact : spec.actions = [(k, e)]) (hm : e.mask = some m) (hst : a.states = .dict d) (ht : a.terminal = .many ts)
    (hok : experience spec mid a = (fed, none))
    (hx : (valueOf (k.getD "action" ++ "_mask") d).getD (ones (ts.length :: (e.ent.shape ++ [m]))) = x) (hp : Proper x)
    (hrow : x.shape.head? = some ts.length) :
    Glued (e.ent.shape ++ [m]) x.data (fed.map (fun b => b.terminal.length)) (column Batch.masks k fed) := by
  unfold experience at hok
  cases hpre : prepare spec mid a with
  | error err => rw [hpre] at hok; exact absurd (Prod.mk.inj hok).2 nofun
  | ok p =>
    rw [hpre] at hok
    dsimp only at hok
    obtain ⟨_, inp, hinp, hter, _, hlt, _, hmasks, hne, hlast, _⟩ := prepare_inv hpre
    have hb : inp.batched = true := by
      cases hb : inp.batched with
      | true => rfl
      | false => rw [hb, ht] at hter; exact absurd hter nofun
    rw [hb, ht] at hter
    have e1 : ts = p.terminal := Except.ok.inj hter
    rw [hst] at hinp
    have hkeyed := (processStates_dict_batched hinp hb).1
    have hpm : p.masks = [(k, x)] := by
      rw [hmasks, hact, popMasks, hm]
      dsimp only
      rw [lookup_eq, hkeyed]
      show [(k, (valueOf (some (maskName k)) (keyed d)).getD _)] = _
      rw [valueOf_keyed, ← hlt, ← e1]
      show [(k, (valueOf (k.getD "action" ++ "_mask") d).getD _)] = _
      rw [hx]
    have hents : maskEnts spec.actions = [(k, ⟨e.ent.shape ++ [m], fun _ => true⟩)] := by
      rw [hact]
      unfold maskEnts
      rw [List.filterMap_cons]
      dsimp only
      rw [hm]
      rfl
    have hconv : ∀ (q : Nat × Nat) (b : Batch), convert spec (cut q.1 q.2 p) = .ok b → b.masks = [(k, slice q.1 q.2 x)] ∧ x.shape.tail = e.ent.shape ++ [m] := by
      intro q b hc
      have := (convert_inv hc).2.2
      rw [hents] at this
      have hcut : (cut q.1 q.2 p).masks = [(k, slice q.1 q.2 x)] := by
        show sliceAll q.1 q.2 p.masks = _
        rw [hpm]; rfl
      rw [hcut] at this
      obtain ⟨h1, h2⟩ := toTensors_single this
      exact ⟨h1, h2⟩
    have hrange : ∀ q ∈ bounds 0 0 p.terminal, q.2 ≤ p.terminal.length := by
      intro q hq
      have := bounds_range p.terminal 0 0 (Nat.le_refl 0) q hq
      omega
    obtain ⟨h1, h2⟩ := feed_column (part := Batch.masks) (k := k) (x := x) hrange hok (by
      intro q b hc
      rw [(hconv q b hc).1]
      unfold valueOf
      rw [List.find?_cons, decide_eq_true rfl]
      rfl)
    have hlast' : ∀ v, p.terminal.getLast? = some v → v ≠ 0 := fun v hv h0 => hlast (by rw [hv, h0])
    have hshape : x.shape = p.terminal.length :: (e.ent.shape ++ [m]) := by
      have hbs : bounds 0 0 p.terminal ≠ [] := by
        intro h0
        have := bounds_pieces 1 p.terminal p.terminal 0 0 (Nat.le_refl 0) (by rw [Nat.zero_add, Nat.mul_one]) hlast' (fun _ => rfl)
        rw [h0, List.flatMap_nil, Nat.zero_mul, List.drop_zero] at this
        exact hne this.symm
      have htail : x.shape.tail = e.ent.shape ++ [m] := by
        cases hbb : bounds 0 0 p.terminal with
        | nil => exact absurd hbb hbs
        | cons q r =>
          rw [hbb, feed] at hok
          cases hc : convert spec (cut q.1 q.2 p) with
          | error err => rw [hc] at hok; exact absurd (Prod.mk.inj hok).2 nofun
          | ok b => exact (hconv q b hc).2
      rw [e1] at hrow
      cases hsx : x.shape with
      | nil => rw [hsx] at hrow; exact absurd hrow nofun
      | cons n s =>
        rw [hsx] at hrow htail
        rw [Option.some.inj hrow, show s = _ from htail]
    rw [h1, h2]
    exact glued_slices hshape hp rfl hlast' (fun h0 => hne (List.eq_nil_of_length_eq_zero h0))

end Verif.Feed
