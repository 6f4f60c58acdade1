import Verif.Feed.ExtraLemmas

/-!
# Feeding experience: lemmas on masks
-/

namespace Verif.Feed

/-- The masks used: the given ones, otherwise everything is allowed. -/
def masksOf (n : Nat) (given : Flat) (actions : List (Key × ActEnt)) : Flat :=
  actions.filterMap (fun e => e.2.mask.map (fun m => (e.1, (valueOf e.1 given).getD (ones (n :: (e.2.ent.shape ++ [m]))))))

/-- Masks by name. -/
def maskFlat (given : Flat) : Flat := given.map (fun e => (some (maskKey e.1), e.2))

theorem valueOf_skip {κ α : Type} [DecidableEq κ] {k : κ} {s r : List (κ × α)} (h : ∀ p ∈ s, p.1 ≠ k) :
    valueOf k (s ++ r) = valueOf k r := by
  unfold valueOf
  rw [List.find?_append, List.find?_eq_none.2 (fun p hp => by rw [decide_eq_false (h p hp)]; exact Bool.false_ne_true)]
  rfl

theorem valueOf_masks {k : Key} : ∀ {given : Flat}, (∀ p ∈ given, maskKey p.1 = maskKey k → p.1 = k) →
    valueOf (some (maskKey k)) (maskFlat given) = valueOf k given
  | [], _ => rfl
  | (a, x) :: r, h => by
    have ih := valueOf_masks (given := r) (fun p hp => h p (List.mem_cons_of_mem _ hp))
    unfold valueOf maskFlat at ih ⊢
    rw [List.map_cons, List.find?_cons, List.find?_cons]
    dsimp only
    by_cases ha : a = k
    · rw [decide_eq_true ha, decide_eq_true (by rw [ha])]
      rfl
    · rw [decide_eq_false ha, decide_eq_false (fun he => ha (h (a, x) List.mem_cons_self (Option.some.inj he)))]
      exact ih

theorem erase_masks {k : Key} : ∀ {given : Flat}, (∀ p ∈ given, maskKey p.1 = maskKey k → p.1 = k) →
    erase (some (maskKey k)) (maskFlat given) = maskFlat (given.filter (fun p => p.1 ≠ k))
  | [], _ => rfl
  | (a, x) :: r, h => by
    have ih := erase_masks (given := r) (fun p hp => h p (List.mem_cons_of_mem _ hp))
    unfold erase maskFlat at ih ⊢
    rw [List.map_cons]
    by_cases ha : a = k
    · rw [List.filter_cons_of_neg (by rw [ha]; simp), List.filter_cons_of_neg (by simp [ha])]
      exact ih
    · have hne : maskKey a ≠ maskKey k := fun he => ha (h (a, x) List.mem_cons_self he)
      rw [List.filter_cons_of_pos (by simp [hne]), List.filter_cons_of_pos (by simp [ha]), List.map_cons, ih]

theorem erase_append {κ α : Type} [DecidableEq κ] {k : κ} {s r : List (κ × α)} (h : ∀ p ∈ s, p.1 ≠ k) :
    erase k (s ++ r) = s ++ erase k r := by
  unfold erase
  rw [List.filter_append, List.filter_eq_self.2 (fun p hp => by rw [decide_eq_true (h p hp)])]

theorem valueOf_filter {k a : Key} (h : a ≠ k) : ∀ {given : Flat}, valueOf a (given.filter (fun p => p.1 ≠ k)) = valueOf a given
  | [] => rfl
  | (b, x) :: r => by
    have ih := valueOf_filter (k := k) (a := a) h (given := r)
    by_cases hb : b = k
    · rw [List.filter_cons_of_neg (by simp [hb]), ih]
      unfold valueOf
      rw [List.find?_cons]
      dsimp only
      rw [decide_eq_false (by rw [hb]; exact fun e => h e.symm)]
    · rw [List.filter_cons_of_pos (by simp [hb])]
      unfold valueOf at ih ⊢
      rw [List.find?_cons, List.find?_cons]
      by_cases hba : b = a
      · dsimp only
        rw [decide_eq_true hba]
      · dsimp only
        rw [decide_eq_false hba]
        exact ih

theorem masksOf_congr {n : Nat} {given given' : Flat} : ∀ {actions : List (Key × ActEnt)}, (∀ e ∈ actions, valueOf e.1 given = valueOf e.1 given') →
    masksOf n given actions = masksOf n given' actions
  | [], _ => rfl
  | (k, e) :: r, h => by
    have ih := masksOf_congr (n := n) (given := given) (given' := given') (actions := r) (fun e he => h e (List.mem_cons_of_mem _ he))
    unfold masksOf at ih ⊢
    rw [List.filterMap_cons, List.filterMap_cons]
    dsimp only
    rw [h (k, e) List.mem_cons_self, ih]

/-- Masks are separated from the states. -/
theorem popMasks_given (n : Nat) (s : Flat) : ∀ (actions : List (Key × ActEnt)) (given : Flat), (actions.map Prod.fst).Nodup →
    (∀ e ∈ actions, e.2.mask ≠ none → ∀ p ∈ s, p.1 ≠ some (maskKey e.1)) →
    (∀ p ∈ given, ∃ e, (p.1, e) ∈ actions ∧ e.mask ≠ none) →
    (∀ p ∈ given, ∀ e ∈ actions, maskKey p.1 = maskKey e.1 → p.1 = e.1) →
    popMasks n actions (s ++ maskFlat given) = (masksOf n given actions, s)
  | [], given, _, _, hg, _ => by
    cases given with
    | nil => show ([], s ++ []) = ([], s); rw [List.append_nil]
    | cons p r =>
      obtain ⟨e, he, _⟩ := hg p List.mem_cons_self
      exact absurd he List.not_mem_nil
  | (k, e) :: r, given, hn, hs, hg, hi => by
    rw [List.map_cons, List.nodup_cons] at hn
    cases hm : e.mask with
    | none =>
      have hg' : ∀ p ∈ given, ∃ e, (p.1, e) ∈ r ∧ e.mask ≠ none := by
        intro p hp
        obtain ⟨a, ha, hma⟩ := hg p hp
        rcases List.mem_cons.1 ha with h | h
        · rw [(Prod.mk.inj h).2] at hma; exact absurd hm hma
        · exact ⟨a, h, hma⟩
      have ih := popMasks_given n s r given hn.2 (fun e he => hs e (List.mem_cons_of_mem _ he)) hg'
        (fun p hp e he => hi p hp e (List.mem_cons_of_mem _ he))
      rw [popMasks, hm]
      dsimp only
      rw [ih]
      unfold masksOf
      rw [List.filterMap_cons]
      dsimp only
      rw [hm]
      rfl
    | some m =>
      have hsk := hs (k, e) List.mem_cons_self (by rw [hm]; exact nofun)
      have hik : ∀ p ∈ given, maskKey p.1 = maskKey k → p.1 = k := fun p hp => hi p hp (k, e) List.mem_cons_self
      have hmem : ∀ p ∈ given.filter (fun p => p.1 ≠ k), p ∈ given ∧ p.1 ≠ k := by
        intro p hp
        have := List.mem_filter.1 hp
        exact ⟨this.1, of_decide_eq_true this.2⟩
      have hg' : ∀ p ∈ given.filter (fun p => p.1 ≠ k), ∃ e, (p.1, e) ∈ r ∧ e.mask ≠ none := by
        intro p hp
        obtain ⟨hpg, hpk⟩ := hmem p hp
        obtain ⟨a, ha, hma⟩ := hg p hpg
        rcases List.mem_cons.1 ha with h | h
        · exact absurd (Prod.mk.inj h).1 hpk
        · exact ⟨a, h, hma⟩
      have ih := popMasks_given n s r (given.filter (fun p => p.1 ≠ k)) hn.2 (fun e he => hs e (List.mem_cons_of_mem _ he)) hg'
        (fun p hp e he => hi p (hmem p hp).1 e (List.mem_cons_of_mem _ he))
      have hlook : lookup (some (maskName k)) (s ++ maskFlat given) = valueOf k given := by
        rw [lookup_eq]
        show valueOf (some (maskKey k)) _ = _
        rw [valueOf_skip hsk, valueOf_masks hik]
      have herase : erase (some (maskName k)) (s ++ maskFlat given) = s ++ maskFlat (given.filter (fun p => p.1 ≠ k)) := by
        show erase (some (maskKey k)) _ = _
        rw [erase_append hsk, erase_masks hik]
      rw [popMasks, hm]
      dsimp only
      rw [hlook, herase, ih]
      dsimp only
      rw [masksOf_congr (given' := given)]
      · unfold masksOf
        rw [List.filterMap_cons]
        dsimp only
        rw [hm]
        rfl
      · intro a ha
        apply valueOf_filter
        intro hak
        exact hn.1 (List.mem_map.2 ⟨a, ha, hak⟩)

theorem append_right_cancel {a b c : String} (h : a ++ c = b ++ c) : a = b := by
  have := congrArg String.toList h
  rw [String.toList_append, String.toList_append] at this
  exact String.toList_inj.1 (List.append_cancel_right this)

theorem maskKey_inj {α : Type} {l : List (Key × α)} (h : Names l) {a b : Key × α}
    (ha : a ∈ l) (hb : b ∈ l) (he : maskKey a.1 = maskKey b.1) : a.1 = b.1 := by
  have hd := append_right_cancel he
  rcases h with ⟨e, hl⟩ | ⟨_, hnamed, _⟩
  · subst hl
    rw [List.mem_singleton.1 ha, List.mem_singleton.1 hb]
  · have h1 := hnamed a ha
    have h2 := hnamed b hb
    cases hx : a.1 with
    | none => exact absurd hx h1
    | some s =>
      cases hy : b.1 with
      | none => exact absurd hy h2
      | some s' =>
        rw [hx, hy] at hd
        exact congrArg some hd

theorem Maskable.separable {spec : Spec} (h : Maskable spec) : Separable spec :=
  ⟨h.states, h.actions, h.clash, h.distinct⟩

theorem valueOf_some_mem {κ α : Type} [DecidableEq κ] {k : κ} {d : List (κ × α)} {x : α} (h : valueOf k d = some x) : (k, x) ∈ d := by
  unfold valueOf at h
  cases hf : d.find? (fun e => e.1 = k) with
  | none => rw [hf] at h; exact absurd h nofun
  | some p =>
    rw [hf] at h
    have h1 := List.mem_of_find?_eq_some hf
    have h2 : p.1 = k := by
      have := List.find?_some hf
      exact of_decide_eq_true this
    rw [← h2, ← Option.some.inj h]
    exact h1

theorem proper_ones (s : List Nat) : Proper (ones s) := by
  show (List.replicate (size s) (1 : Rat)).length = count s
  rw [List.length_replicate, size_eq]

theorem match_masks {n : Nat} {given : Flat} : ∀ {actions : List (Key × ActEnt)}, (actions.map Prod.fst).Nodup →
    (∀ e ∈ actions, ∀ m x, e.2.mask = some m → valueOf e.1 given = some x → x.shape = n :: (e.2.ent.shape ++ [m]) ∧ Proper x) →
    Match n (maskEnts actions) (masksOf n given actions)
  | [], _, _ => .nil
  | (k, e) :: r, hn, h => by
    rw [List.map_cons, List.nodup_cons] at hn
    have ih := match_masks (n := n) (given := given) hn.2 (fun e he => h e (List.mem_cons_of_mem _ he))
    unfold maskEnts masksOf at ih ⊢
    rw [List.filterMap_cons, List.filterMap_cons]
    dsimp only
    cases hm : e.mask with
    | none => exact ih
    | some m =>
      have hx := h (k, e) List.mem_cons_self m
      cases hv : valueOf k given with
      | none => exact .cons rfl (proper_ones _) (fun _ _ => rfl) ih
      | some x =>
        obtain ⟨h1, h2⟩ := hx x hm hv
        exact .cons h1 h2 (fun _ _ => rfl) ih

theorem maskEnts_nodup : ∀ {actions : List (Key × ActEnt)}, (actions.map Prod.fst).Nodup → ((maskEnts actions).map Prod.fst).Nodup
  | [], _ => List.nodup_nil
  | (k, e) :: r, hn => by
    rw [List.map_cons, List.nodup_cons] at hn
    have ih := maskEnts_nodup hn.2
    unfold maskEnts at ih ⊢
    rw [List.filterMap_cons]
    dsimp only
    cases hm : e.mask with
    | none => exact ih
    | some m =>
      show (k :: _).Nodup
      rw [List.nodup_cons]
      refine ⟨?_, ih⟩
      intro hk
      obtain ⟨p, hp, hpk⟩ := List.mem_map.1 hk
      obtain ⟨a, ha, hap⟩ := List.mem_filterMap.1 hp
      apply hn.1
      cases hma : a.2.mask with
      | none => rw [hma] at hap; exact absurd hap nofun
      | some m' =>
        rw [hma] at hap
        have := Option.some.inj hap
        exact List.mem_map.2 ⟨a, ha, by rw [← hpk, ← this]⟩

/-- One repetition changes nothing. -/
theorem repeatBlocks_one (w : Nat) : ∀ (m : Nat) (l : List Rat), l.length = m * w → repeatBlocks 1 w m l = l
  | 0, l, h => by
    rw [Nat.zero_mul] at h
    rw [List.eq_nil_of_length_eq_zero h]
    rfl
  | m + 1, l, h => by
    rw [repeatBlocks, List.replicate_one, List.flatten_cons, List.flatten_nil, List.append_nil, repeatBlocks_one w m, List.take_append_drop]
    rw [List.length_drop, h, Nat.succ_mul, Nat.add_sub_cancel]

theorem size_append (w : Nat) : ∀ (s : List Nat), size (s ++ [w]) = size s * w
  | [] => by show w * 1 = 1 * w; rw [Nat.mul_one, Nat.one_mul]
  | n :: r => by show n * size (r ++ [w]) = n * size r * w; rw [size_append w r, Nat.mul_assoc]

theorem tile_one {x : Nd} (h : Proper x) : tile 1 x = expand x := by
  have hsplit : (1 :: x.shape).dropLast ++ [(1 :: x.shape).getLastD 1] = 1 :: x.shape := by
    have := List.dropLast_concat_getLast (l := 1 :: x.shape) (List.cons_ne_nil _ _)
    rw [List.getLastD_eq_getLast?, List.getLast?_eq_some_getLast (List.cons_ne_nil _ _)]
    exact this
  have hlen : x.data.length = size (1 :: x.shape).dropLast * (1 :: x.shape).getLastD 1 := by
    rw [← size_append, hsplit]
    have : x.data.length = count x.shape := h
    rw [this, ← size_eq]
    show _ = 1 * size x.shape
    rw [Nat.one_mul]
  unfold tile
  dsimp only
  rw [Nat.mul_one, hsplit, repeatBlocks_one _ _ _ hlen]
  rfl

theorem repeatRows_one (x : Nd) : repeatRows 1 x = expand x := by
  unfold repeatRows expand
  rw [List.replicate_one, List.flatten_cons, List.flatten_nil, List.append_nil]

theorem keyed_states_named : ∀ {f : Flat}, (∀ p ∈ f, p.1 ≠ none) → keyed (f.map (fun e => (e.1.getD "state", e.2))) = f
  | [], _ => rfl
  | (none, x) :: r, h => absurd rfl (h (none, x) List.mem_cons_self)
  | (some k, x) :: r, h => by
    have := keyed_states_named (f := r) (fun p hp => h p (List.mem_cons_of_mem _ hp))
    show (some k, x) :: keyed (r.map (fun e => (e.1.getD "state", e.2))) = _
    rw [this]

theorem keyed_dictOf (states given : Flat) :
    keyed (dictOf states given) = keyed (states.map (fun e => (e.1.getD "state", e.2))) ++ maskFlat given := by
  unfold dictOf keyed maskFlat
  rw [List.map_append, List.map_map, List.map_map]
  rfl

/-- A dictionary of arrays with states and masks is used as it is. -/
theorem states_processed {spec : Spec} {states : Flat} {n : Nat} {given : Flat} (hs : Separable spec) (hm : Match n spec.states states) (hn : n ≠ 0)
    (hg : GivenMasks spec n given) :
    processStates spec.states (.dict (dictOf states given)) = .ok ⟨keyed (dictOf states given), true, n, some false⟩ := by
  have hrows : ∀ p ∈ dictOf states given, p.2.shape.head? = some n := by
    intro p hp
    rcases List.mem_append.1 hp with h | h
    · obtain ⟨q, hq, hqp⟩ := List.mem_map.1 h
      rw [← hqp]
      exact match_rows hm q hq
    · obtain ⟨q, hq, hqp⟩ := List.mem_map.1 h
      obtain ⟨e, m, _, _, hsh, _⟩ := hg.2 q hq
      rw [← hqp]
      dsimp only
      rw [hsh]
      rfl
  cases hsp : spec.states with
  | nil =>
    rcases hs.states with ⟨e, he⟩ | ⟨hne, _⟩
    · rw [hsp] at he; exact absurd he nofun
    · exact absurd hsp hne
  | cons ke r =>
    obtain ⟨k, e⟩ := ke
    rw [hsp] at hm
    cases hm with
    | @cons _ _ x _ f hsx hp hv hr =>
      exact Verif.Props.Forms.dict_form ((k, e) :: r) (dictOf ((k, x) :: f) given) (k.getD "state") e x n ⟨k, r, rfl, rfl⟩
        (by unfold valueOf dictOf; simp) hsx hn hrows

/-- The masks are separated from the states. -/
theorem states_separated {spec : Spec} {states : Flat} {n : Nat} {given : Flat} (hs : Separable spec) (hm : Match n spec.states states)
    (hg : GivenMasks spec n given) :
    ∃ st, popMasks n spec.actions (keyed (dictOf states given)) = (masksOf n given spec.actions, st) ∧
      dropName spec.states st = .ok states := by
  refine ⟨keyed (states.map (fun e => (e.1.getD "state", e.2))), ?_, ?_⟩
  · rw [keyed_dictOf]
    apply popMasks_given n _ _ _ (names_nodup hs.actions)
    · intro e he hme p hp
      obtain ⟨q, hq, hqp⟩ := List.mem_map.1 hp
      obtain ⟨a, ha, haq⟩ := List.mem_map.1 hq
      have hna : a.1 ∈ spec.states.map Prod.fst := by rw [← match_names hm]; exact List.mem_map.2 ⟨a, ha, rfl⟩
      obtain ⟨s, hss, hsa⟩ := List.mem_map.1 hna
      have := hs.clash s hss e he hme
      rw [← hqp, ← haq]
      intro heq
      apply this
      rw [hsa]
      exact Option.some.inj heq
    · intro p hp
      obtain ⟨e, m, he, hme, _⟩ := hg.2 p hp
      exact ⟨e, he, by rw [hme]; exact nofun⟩
    · intro p hp e he heq
      obtain ⟨a, m, ha, _⟩ := hg.2 p hp
      exact maskKey_inj hs.actions ha he heq
  · rcases hs.states with ⟨e, he⟩ | ⟨_, hnamed, _⟩
    · rw [he] at hm ⊢
      obtain ⟨x, hf, _⟩ := match_single hm
      rw [hf]
      rfl
    · rw [keyed_states_named (match_named hm hnamed), dropName, single_named hnamed]
      rfl

/-- States with masks are processed to themselves, and the masks are separated. -/
theorem states_with_masks {spec : Spec} {t : Trace} {n : Nat} {given : Flat} (hs : Maskable spec) (ht : Fits spec t n) (hn : n ≠ 0)
    (hg : GivenMasks spec n given) :
    processStates spec.states (.dict (dictOf t.states given)) = .ok ⟨keyed (dictOf t.states given), true, n, some false⟩ ∧
    ∃ st, popMasks n spec.actions (keyed (dictOf t.states given)) = (masksOf n given spec.actions, st) ∧
      dropName spec.states st = .ok t.states :=
  ⟨states_processed hs.separable ht.states hn hg, states_separated hs.separable ht.states hg⟩

theorem internals_with_masks {spec : Spec} {n : Nat} (hs : Maskable spec) (h : spec.internals = [] ∨ n = 1) :
    internalsOf spec false n .absent = .ok (wholeInternals n spec.internals) := by
  unfold internalsOf
  rw [if_neg Bool.false_ne_true]
  rcases h with h | h
  · rw [h]; rfl
  · subst h
    have : spec.internals.map (fun e => (e.1, tile 1 e.2)) = spec.internals.map (fun e => (e.1, repeatRows 1 e.2)) := by
      apply map_congr'
      intro e he
      rw [tile_one (hs.initial e he), repeatRows_one]
    rw [this, keyed_repeat]

theorem masks_match {spec : Spec} {n : Nat} {given : Flat} (hs : Separable spec) (hg : GivenMasks spec n given) :
    Match n (maskEnts spec.actions) (masksOf n given spec.actions) := by
  apply match_masks (names_nodup hs.actions)
  intro e he m x hm hx
  obtain ⟨a, m', ha, hm', hsh, hp⟩ := hg.2 (e.1, x) (valueOf_some_mem hx)
  have h1 := valueOf_mem (names_nodup hs.actions) (e.1, a) ha
  have h2 := valueOf_mem (names_nodup hs.actions) e he
  have hae : a = e.2 := Option.some.inj (h1.symm.trans h2)
  rw [hae] at hm' hsh
  rw [hm] at hm'
  rw [← Option.some.inj hm'] at hsh
  exact ⟨hsh, hp⟩

theorem feed_to {spec : Spec} {p p' : Batch} : ∀ {bs : List (Nat × Nat)},
    (∀ q ∈ bs, convert spec (cut q.1 q.2 p) = .ok (cut q.1 q.2 p')) →
    feed spec p bs = (bs.map (fun q => cut q.1 q.2 p'), none)
  | [], _ => rfl
  | (a, b) :: r, h => by
    rw [feed, h (a, b) List.mem_cons_self]
    dsimp only
    rw [feed_to (fun q hq => h q (List.mem_cons_of_mem _ hq))]
    rfl

theorem experience_all {spec : Spec} {t : Trace} {n : Nat} {given : Flat} {ii : InternalsIn} {int int' : Flat} (hs : Maskable spec) (ht : Fits spec t n)
    (hi : internalsOf spec false n ii = .ok int) (hint : checkRows n int = .ok ())
    (hconv : ∀ a b, toTensors (internalEnts spec.internals) true (sliceAll a b int) = .ok (sliceAll a b int'))
    (hg : GivenMasks spec n given) :
    experience spec false (argsAll t given ii) =
      ((bounds 0 0 t.terminal).map (fun q => cut q.1 q.2 ⟨t.states, int', masksOf n given spec.actions, t.actions, t.terminal, t.reward⟩), none) := by
  obtain ⟨hn, hlast⟩ := fits_last ht
  obtain ⟨hst, st, hpop, hdr⟩ := states_with_masks hs ht hn hg
  have hact : checkRows n t.actions = .ok () := checkRows_ok _ _ (match_rows ht.actions)
  have hempty : t.terminal.isEmpty = false := by
    cases hte : t.terminal with
    | nil => exact absurd (by rw [← ht.terminal, hte]; rfl) hn
    | cons => rfl
  have hl0 : (t.terminal.getLast? != some 0) = true := by
    rw [bne_iff_ne]
    intro h
    exact hlast 0 h rfl
  have hterm : (t.terminal.length == n) = true := by rw [ht.terminal]; exact beq_self_eq_true n
  have hrew : (t.reward.length == n) = true := by rw [ht.reward]; exact beq_self_eq_true n
  have hpre : prepare spec false (argsAll t given ii) = .ok ⟨t.states, int, masksOf n given spec.actions, t.actions, t.terminal, t.reward⟩ :=
    prepare_steps hst hi (actions_given hs.actions hs.name ht false nofun) hint hact hterm hrew hpop hdr hempty hl0
  rw [experience, hpre]
  dsimp only
  apply feed_to
  intro q _
  have h1 := toTensors_slices (a := q.1) (b := q.2) false ht.states (names_nodup hs.states)
  have h2 := hconv q.1 q.2
  have h3 := toTensors_slices (a := q.1) (b := q.2) false (masks_match hs.separable hg) (maskEnts_nodup (names_nodup hs.actions))
  have h4 : toTensors (actionEnts spec.actions) false (sliceAll q.1 q.2 t.actions) = .ok (sliceAll q.1 q.2 t.actions) := by
    apply toTensors_slices false ht.actions
    rw [List.map_map]
    exact names_nodup hs.actions
  unfold convert
  show (do
    let states ← toTensors spec.states false (sliceAll q.1 q.2 t.states)
    let internals ← toTensors (internalEnts spec.internals) true (sliceAll q.1 q.2 int)
    let masks ← toTensors (maskEnts spec.actions) false (sliceAll q.1 q.2 (masksOf n given spec.actions))
    let actions ← toTensors (actionEnts spec.actions) false (sliceAll q.1 q.2 t.actions)
    pure (⟨states, internals, masks, actions, _, _⟩ : Batch)) = _
  rw [h1, bind_ok, h2, bind_ok, h3, bind_ok, h4]
  rfl

theorem experience_masks {spec : Spec} {t : Trace} {n : Nat} {given : Flat} (hs : Maskable spec) (ht : Fits spec t n)
    (hi : spec.internals = [] ∨ n = 1) (hg : GivenMasks spec n given) :
    experience spec false (argsWith t given) =
      ((bounds 0 0 t.terminal).map (fun q => cut q.1 q.2 { wholeOf spec t n with masks := masksOf n given spec.actions }), none) :=
  experience_all (ii := .absent) hs ht (internals_with_masks hs hi)
    (checkRows_ok _ _ (match_rows (match_internals n spec.internals hs.initial)))
    (fun _ _ => toTensors_slices true (match_internals n spec.internals hs.initial) (internalEnts_nodup hs.distinct)) hg

/-- The internal states of the specification among the given ones. -/
def chosen (internals : List (String × Nd)) (given : Dict) : Flat :=
  internals.filterMap (fun e => (valueOf e.1 given).map (fun x => (some e.1, x)))

theorem match_chosen {n : Nat} {given : Dict} : ∀ {internals : List (String × Nd)},
    (∀ e ∈ internals, ∃ x, valueOf e.1 given = some x ∧ x.shape = n :: e.2.shape ∧ Proper x) →
    Match n (internalEnts internals) (chosen internals given)
  | [], _ => .nil
  | (k, y) :: r, h => by
    obtain ⟨x, hx, hsh, hp⟩ := h (k, y) List.mem_cons_self
    have ih := match_chosen (fun e he => h e (List.mem_cons_of_mem _ he))
    unfold chosen at ih ⊢
    rw [List.filterMap_cons]
    dsimp only
    rw [hx]
    exact .cons hsh hp (fun _ _ => rfl) ih

theorem toTensors_chosen {spec : Spec} {n : Nat} {given : Dict} (hg : GivenInternals spec n given) (a b : Nat) :
    toTensors (internalEnts spec.internals) true (sliceAll a b (keyed given)) = .ok (sliceAll a b (chosen spec.internals given)) := by
  show (check true .keys >>= fun _ => _) = _
  rw [check, if_pos rfl, bind_ok]
  apply mapM_slices (match_chosen hg.2)
  intro e he
  obtain ⟨p, hp, hpe⟩ := List.mem_filterMap.1 he
  cases hv : valueOf p.1 given with
  | none => rw [hv] at hpe; exact absurd hpe nofun
  | some x =>
    rw [hv] at hpe
    have := Option.some.inj hpe
    rw [← this]
    have hk : valueOf (some p.1) (keyed given) = some x := by rw [valueOf_keyed, hv]
    exact valueOf_map (fun e : Key × Nd => slice a b e.2) hk

theorem masks_glued {spec : Spec} {t : Trace} {n : Nat} {given : Flat} (hs : Maskable spec) (ht : Fits spec t n)
    (hg : GivenMasks spec n given) (int : Flat) (e : Key × ActEnt) (he : e ∈ spec.actions) (m : Nat) (hm : e.2.mask = some m) :
    Glued (e.2.ent.shape ++ [m]) (((valueOf e.1 given).map Nd.data).getD (List.replicate (n * count (e.2.ent.shape ++ [m])) 1))
      (((bounds 0 0 t.terminal).map (fun q => cut q.1 q.2 ⟨t.states, int, masksOf n given spec.actions, t.actions, t.terminal, t.reward⟩)).map
        (fun b => b.terminal.length))
      (column Batch.masks e.1 ((bounds 0 0 t.terminal).map (fun q => cut q.1 q.2 ⟨t.states, int, masksOf n given spec.actions, t.actions, t.terminal, t.reward⟩))) := by
  obtain ⟨hn, hlast⟩ := fits_last ht
  have hmatch := masks_match hs.separable hg
  have hnod : ((masksOf n given spec.actions).map Prod.fst).Nodup := by
    rw [match_names hmatch]; exact maskEnts_nodup (names_nodup hs.actions)
  have hmem : (e.1, (valueOf e.1 given).getD (ones (n :: (e.2.ent.shape ++ [m])))) ∈ masksOf n given spec.actions :=
    List.mem_filterMap.2 ⟨e, he, by rw [hm]; rfl⟩
  obtain ⟨x, hx, hsh, hp⟩ := match_mem hmatch (e.1, ⟨e.2.ent.shape ++ [m], fun _ => true⟩)
    (List.mem_filterMap.2 ⟨e, he, by rw [hm]; rfl⟩)
  have hxe : (valueOf e.1 given).getD (ones (n :: (e.2.ent.shape ++ [m]))) = x :=
    Option.some.inj ((valueOf_mem hnod _ hmem).symm.trans (valueOf_mem hnod _ hx))
  have hdata : ((valueOf e.1 given).map Nd.data).getD (List.replicate (n * count (e.2.ent.shape ++ [m])) 1) = x.data := by
    rw [← hxe]
    cases valueOf e.1 given with
    | none =>
      show _ = List.replicate (size (n :: (e.2.ent.shape ++ [m]))) (1 : Rat)
      rw [size_eq]
      rfl
    | some y => rfl
  have hlens : ((bounds 0 0 t.terminal).map (fun q => cut q.1 q.2 ⟨t.states, int, masksOf n given spec.actions, t.actions, t.terminal, t.reward⟩)).map (fun b => b.terminal.length) =
      (bounds 0 0 t.terminal).map (fun q => q.2 - q.1) := by
    rw [List.map_map]
    apply map_congr'
    intro q hq
    have := bounds_range t.terminal 0 0 (Nat.le_refl 0) q hq
    exact take_length (by show q.2 ≤ t.terminal.length; omega)
  rw [hdata, hlens, column_slices (x := x) (fun q _ => valueOf_slices q.1 q.2 hnod hx)]
  exact glued_slices hsh hp ht.terminal hlast hn

theorem internals_glued {spec : Spec} {t : Trace} {n : Nat} {given : Dict} (hs : Maskable spec) (ht : Fits spec t n)
    (hg : GivenInternals spec n given) (masks : Flat) (e : String × Nd) (he : e ∈ spec.internals) (x : Nd) (hx : valueOf e.1 given = some x) :
    Glued e.2.shape x.data
      (((bounds 0 0 t.terminal).map (fun q => cut q.1 q.2 ⟨t.states, chosen spec.internals given, masks, t.actions, t.terminal, t.reward⟩)).map
        (fun b => b.terminal.length))
      (column Batch.internals (some e.1)
        ((bounds 0 0 t.terminal).map (fun q => cut q.1 q.2 ⟨t.states, chosen spec.internals given, masks, t.actions, t.terminal, t.reward⟩))) := by
  obtain ⟨hn, hlast⟩ := fits_last ht
  obtain ⟨y, hy, hsh, hp⟩ := hg.2 e he
  rw [hx] at hy
  rw [← Option.some.inj hy] at hsh hp
  have hnod : ((chosen spec.internals given).map Prod.fst).Nodup := by
    rw [match_names (match_chosen hg.2)]; exact internalEnts_nodup hs.distinct
  have hmem : (some e.1, x) ∈ chosen spec.internals given := List.mem_filterMap.2 ⟨e, he, by rw [hx]; rfl⟩
  have hlens : ((bounds 0 0 t.terminal).map (fun q => cut q.1 q.2 ⟨t.states, chosen spec.internals given, masks, t.actions, t.terminal, t.reward⟩)).map
      (fun b => b.terminal.length) = (bounds 0 0 t.terminal).map (fun q => q.2 - q.1) := by
    rw [List.map_map]
    apply map_congr'
    intro q hq
    have := bounds_range t.terminal 0 0 (Nat.le_refl 0) q hq
    exact take_length (by show q.2 ≤ t.terminal.length; omega)
  rw [hlens, column_slices (x := x) (fun q _ => valueOf_slices q.1 q.2 hnod hmem)]
  exact glued_slices hsh hp ht.terminal hlast hn

end Verif.Feed
