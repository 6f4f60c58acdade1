import Verif.Feed.MaskLemmas

/-!
# Feeding experience: lemmas on what is accepted
-/

namespace Verif.Feed

theorem mapM_inv {α β : Type} {f : α → Except Err β} : ∀ {l : List α} {r : List β}, l.mapM f = .ok r → ∀ a ∈ l, ∃ b, f a = .ok b
  | [], _, _ => nofun
  | a :: l, r, h => by
    rw [List.mapM_cons] at h
    obtain ⟨b, hb, h⟩ := bind_eq_ok h
    obtain ⟨c, hc, _⟩ := bind_eq_ok h
    intro x hx
    rcases List.mem_cons.1 hx with e | hx
    · subst e; exact ⟨b, hb⟩
    · exact mapM_inv hc x hx

theorem mapM_values {k : String} : ∀ {ds : List Dict} {ys : List Nd}, ds.mapM (fun d => found .key (lookup k d)) = .ok ys →
    ds.filterMap (valueOf k) = ys ∧ ∀ d ∈ ds, ∃ y ∈ ys, valueOf k d = some y
  | [], ys, h => by
    rw [← Except.ok.inj h]
    exact ⟨rfl, nofun⟩
  | d :: r, ys, h => by
    rw [List.mapM_cons] at h
    obtain ⟨y, hy, h⟩ := bind_eq_ok h
    obtain ⟨c, hc, h⟩ := bind_eq_ok h
    have ih := mapM_values hc
    have hv : valueOf k d = some y := by
      rw [lookup_eq] at hy
      cases hd : valueOf k d with
      | none => rw [hd] at hy; exact absurd hy nofun
      | some z => rw [hd] at hy; rw [Except.ok.inj hy]
    rw [← Except.ok.inj h]
    refine ⟨?_, ?_⟩
    · rw [List.filterMap_cons, hv]; dsimp only; rw [ih.1]
    · intro x hx
      rcases List.mem_cons.1 hx with e | hx
      · subst e; exact ⟨y, List.mem_cons_self, hv⟩
      · obtain ⟨z, hz, hzv⟩ := ih.2 x hx
        exact ⟨z, List.mem_cons_of_mem _ hz, hzv⟩

theorem allDicts_inv : ∀ {ds : List (Option Dict)} {l : List Dict}, allDicts ds = .ok l → ds = l.map some
  | [], l, h => by rw [← Except.ok.inj h]; rfl
  | none :: r, l, h => absurd h nofun
  | some d :: r, l, h => by
    rw [allDicts] at h
    obtain ⟨c, hc, h⟩ := bind_eq_ok h
    rw [← Except.ok.inj h, allDicts_inv hc]
    rfl

theorem stackDicts_inv {d : Dict} {ds : List Dict} {f : Flat} (h : stackDicts d ds = .ok f) :
    ∀ e ∈ d, ∀ d' ∈ ds, ∃ y, valueOf e.1 d' = some y ∧ y.shape = e.2.shape := by
  intro e he d' hd
  obtain ⟨b, hb⟩ := mapM_inv h e he
  obtain ⟨ys, hys, hb⟩ := bind_eq_ok hb
  obtain ⟨x, hx, _⟩ := bind_eq_ok hb
  obtain ⟨y, hy, hv⟩ := (mapM_values hys).2 d' hd
  refine ⟨y, hv, ?_⟩
  rw [stack] at hx
  by_cases hall : ys.all (fun y => y.shape = e.2.shape) = true
  · exact of_decide_eq_true (List.all_eq_true.1 hall y hy)
  · rw [if_neg hall] at hx; exact absurd hx nofun

theorem mapM_accept {α β : Type} {f : α → Except Err β} : ∀ {l : List α}, (∀ a ∈ l, ∃ b, f a = .ok b) → ∃ r, l.mapM f = .ok r
  | [], _ => ⟨[], rfl⟩
  | a :: l, h => by
    obtain ⟨b, hb⟩ := h a List.mem_cons_self
    obtain ⟨r, hr⟩ := mapM_accept (fun x hx => h x (List.mem_cons_of_mem _ hx))
    exact ⟨b :: r, by rw [List.mapM_cons, hb, bind_ok, hr]; rfl⟩

theorem mapM_found {k : String} {s : List Nat} : ∀ {ds : List Dict}, (∀ d ∈ ds, ∃ y, valueOf k d = some y ∧ y.shape = s) →
    ∃ ys, ds.mapM (fun d => found .key (lookup k d)) = .ok ys ∧ (∀ y ∈ ys, y.shape = s) ∧ ys.length = ds.length
  | [], _ => ⟨[], rfl, nofun, rfl⟩
  | d :: r, h => by
    obtain ⟨y, hy, hs⟩ := h d List.mem_cons_self
    obtain ⟨ys, h1, h2, h3⟩ := mapM_found (fun x hx => h x (List.mem_cons_of_mem _ hx))
    refine ⟨y :: ys, by rw [List.mapM_cons, lookup_eq, hy, found, bind_ok, h1]; rfl, ?_, by rw [List.length_cons, h3]; rfl⟩
    intro z hz
    rcases List.mem_cons.1 hz with e | hz
    · rw [e]; exact hs
    · exact h2 z hz

theorem mapM_mem {α β : Type} {f : α → Except Err β} : ∀ {l : List α} {r : List β}, l.mapM f = .ok r → ∀ b ∈ r, ∃ a ∈ l, f a = .ok b
  | [], r, h => by rw [← Except.ok.inj h]; nofun
  | a :: l, r, h => by
    rw [List.mapM_cons] at h
    obtain ⟨b, hb, h⟩ := bind_eq_ok h
    obtain ⟨c, hc, h⟩ := bind_eq_ok h
    rw [← Except.ok.inj h]
    intro x hx
    rcases List.mem_cons.1 hx with e | hx
    · subst e; exact ⟨a, List.mem_cons_self, hb⟩
    · obtain ⟨a', ha', h'⟩ := mapM_mem hc x hx
      exact ⟨a', List.mem_cons_of_mem _ ha', h'⟩

theorem processStates_form {spec : List (Key × Ent)} {s : StatesIn} {inp : Input} (h : processStates spec s = .ok inp) :
    processForm spec s = .ok inp := by
  unfold processStates at h
  obtain ⟨i, hi, h⟩ := bind_eq_ok h
  obtain ⟨u, _, h⟩ := bind_eq_ok h
  rw [hi, Except.ok.inj h]

theorem processDict_inv {name : String} {e : Ent} {d : Dict} {inp : Input} (h : processDict name e d = .ok inp) :
    ∃ x, valueOf name d = some x ∧
      ((x.shape = e.shape ∧ inp = ⟨keyed (d.map (fun p => (p.1, expand p.2))), false, 1, none⟩) ∨
       ∃ n, n ≠ 0 ∧ x.shape = n :: e.shape ∧ inp = ⟨keyed d, true, n, some false⟩) := by
  rw [processDict, lookup_eq] at h
  cases hx : valueOf name d with
  | none => rw [hx] at h; exact absurd h nofun
  | some x =>
    rw [hx] at h
    dsimp only at h
    refine ⟨x, rfl, ?_⟩
    by_cases h1 : x.shape = e.shape
    · rw [if_pos h1] at h
      exact .inl ⟨h1, (Except.ok.inj h).symm⟩
    · rw [if_neg h1] at h
      by_cases h2 : x.shape.tail = e.shape
      · rw [if_pos h2] at h
        cases hs : x.shape with
        | nil => rw [hs] at h; exact absurd h nofun
        | cons n s =>
          rw [hs] at h h2
          dsimp only at h
          by_cases hn : n = 0
          · rw [if_pos hn] at h; exact absurd h nofun
          · rw [if_neg hn] at h
            exact .inr ⟨n, hn, by rw [← h2]; rfl, (Except.ok.inj h).symm⟩
      · rw [if_neg h2] at h; exact absurd h nofun

theorem processArray_inv {e : Ent} {x : Nd} {inp : Input} (h : processArray e x = .ok inp) :
    (x.shape = e.shape ∧ inp = ⟨[(none, expand x)], false, 1, none⟩) ∨
      ∃ n, x.shape = n :: e.shape ∧ inp = ⟨[(none, x)], true, n, some true⟩ := by
  rw [processArray] at h
  by_cases h1 : x.shape = e.shape
  · rw [if_pos h1] at h
    exact .inl ⟨h1, (Except.ok.inj h).symm⟩
  · rw [if_neg h1] at h
    by_cases h2 : x.shape.tail = e.shape
    · rw [if_pos h2] at h
      cases hs : x.shape with
      | nil => rw [hs] at h; exact absurd h nofun
      | cons n s =>
        rw [hs] at h h2
        exact .inr ⟨n, by rw [← h2]; rfl, (Except.ok.inj h).symm⟩
    · rw [if_neg h2] at h; exact absurd h nofun

/-- The branch taken. -/
theorem processStates_inv {spec : List (Key × Ent)} {s : StatesIn} {inp : Input} (h : processStates spec s = .ok inp) :
    (inp.batched = false ↔ GivenSingly spec s) ∧ (inp.batched = false → inp.iter = none) ∧ (∀ d, s = .dict d → inp.iter ≠ some true) := by
  have hf := processStates_form h
  cases s with
  | empty =>
    unfold processForm at hf
    dsimp only at hf
    split at hf <;> exact absurd hf nofun
  | list d ds =>
    have hf : processList d ds = .ok inp := hf
    unfold processList at hf
    obtain ⟨l, _, hf⟩ := bind_eq_ok hf
    obtain ⟨st, _, hf⟩ := bind_eq_ok hf
    rw [← Except.ok.inj hf]
    exact ⟨⟨nofun, fun h => h.elim⟩, nofun, nofun⟩
  | array x =>
    unfold processForm at hf
    dsimp only at hf
    split at hf
    · rename_i e
      rcases processArray_inv hf with ⟨h1, h2⟩ | ⟨n, h1, h2⟩
      · rw [h2]
        exact ⟨⟨fun _ => ⟨none, e, [], rfl, h1⟩, fun _ => rfl⟩, fun _ => rfl, nofun⟩
      · rw [h2]
        refine ⟨⟨nofun, ?_⟩, nofun, nofun⟩
        rintro ⟨k, e', r, he, hx⟩
        have : e = e' := (Prod.mk.inj (List.cons.inj he).1).2
        rw [← this, h1] at hx
        exact absurd hx (cons_ne_tail _ _)
    · exact absurd hf nofun
  | dict d =>
    cases spec with
    | nil => exact absurd hf nofun
    | cons ke r =>
      obtain ⟨k, e⟩ := ke
      obtain ⟨x, hx, hc⟩ := processDict_inv (show processDict (k.getD "state") e d = .ok inp from hf)
      rcases hc with ⟨h1, h2⟩ | ⟨n, hn, h1, h2⟩
      · rw [h2]
        exact ⟨⟨fun _ => ⟨_, e, x, ⟨k, r, rfl, rfl⟩, hx, h1⟩, fun _ => rfl⟩, fun _ => rfl, fun _ _ => nofun⟩
      · rw [h2]
        refine ⟨⟨nofun, ?_⟩, nofun, fun _ _ => show some false ≠ some true by decide⟩
        rintro ⟨name, e', x', ⟨k', r', he, hname⟩, hx', hs⟩
        have he1 := (List.cons.inj he).1
        have hk : k = k' := (Prod.mk.inj he1).1
        have hee : e = e' := (Prod.mk.inj he1).2
        rw [hname, ← hk, hx] at hx'
        rw [← Option.some.inj hx', ← hee, h1] at hs
        exact absurd hs (cons_ne_tail _ _)

theorem popMasks_keeps (n : Nat) {p : Key × Nd} : ∀ (actions : List (Key × ActEnt)) (st : Flat),
    (∀ a ∈ actions, a.2.mask ≠ none → p.1 ≠ some (maskKey a.1)) → p ∈ st → p ∈ (popMasks n actions st).2
  | [], st, _, hp => hp
  | (k, e) :: r, st, h, hp => by
    have hr : ∀ a ∈ r, a.2.mask ≠ none → p.1 ≠ some (maskKey a.1) := fun a ha => h a (List.mem_cons_of_mem _ ha)
    rw [popMasks]
    cases hm : e.mask with
    | none => exact popMasks_keeps n r st hr hp
    | some m =>
      have hk := h (k, e) List.mem_cons_self (by rw [hm]; exact nofun)
      exact popMasks_keeps n r _ hr (List.mem_filter.2 ⟨hp, decide_eq_true hk⟩)

theorem prepare_states {spec : Spec} {mid : Bool} {a : Args} {p : Batch} (h : prepare spec mid a = .ok p) :
    ∃ inp, processStates spec.states a.states = .ok inp ∧
      dropName spec.states (popMasks inp.num spec.actions inp.states).2 = .ok p.states := by
  unfold prepare at h
  obtain ⟨u, hu, h⟩ := bind_eq_ok h
  obtain ⟨inp, hinp, h⟩ := bind_eq_ok h
  obtain ⟨int, hint, h⟩ := bind_eq_ok h
  obtain ⟨act, hact, h⟩ := bind_eq_ok h
  obtain ⟨u1, h1, h⟩ := bind_eq_ok h
  obtain ⟨u2, h2, h⟩ := bind_eq_ok h
  obtain ⟨ter, hter, h⟩ := bind_eq_ok h
  obtain ⟨rew, hrew, h⟩ := bind_eq_ok h
  obtain ⟨u3, h3, h⟩ := bind_eq_ok h
  obtain ⟨u4, h4, h⟩ := bind_eq_ok h
  obtain ⟨st, hst, h⟩ := bind_eq_ok h
  obtain ⟨u5, h5, h⟩ := bind_eq_ok h
  obtain ⟨u6, h6, h⟩ := bind_eq_ok h
  have hp := Except.ok.inj h
  exact ⟨inp, hinp, by rw [hst, ← hp]⟩

/-- A state of an unknown name is kept until the conversion, or rejected before. -/
theorem dropName_unknown {spec : List (Key × Ent)} {st st' : Flat} {k : String} {x : Nd} (h : dropName spec st = .ok st')
    (hx : (some k, x) ∈ st) (hk : ∀ s ∈ spec, s.1.getD "state" ≠ k) : (some k, x) ∈ st' ∧ some k ∉ spec.map Prod.fst := by
  have hnot : some k ∉ spec.map Prod.fst := by
    intro hm
    obtain ⟨s, hs, hsk⟩ := List.mem_map.1 hm
    apply hk s hs
    rw [hsk]
    rfl
  refine ⟨?_, hnot⟩
  rw [dropName] at h
  by_cases hc : (single spec && !single st) = true
  · rw [if_pos hc] at h
    have hsp : single spec = true := (Bool.and_eq_true_iff.1 hc).1
    have hne : ("state" : String) ≠ k := by
      unfold single at hsp
      split at hsp
      · exact hk _ List.mem_cons_self
      · exact absurd hsp nofun
    cases hl : lookup (some "state") st with
    | none => rw [hl] at h; exact absurd h nofun
    | some y =>
      rw [hl] at h
      dsimp only at h
      have hmem : (some k, x) ∈ erase (some "state") st :=
        List.mem_filter.2 ⟨hx, decide_eq_true (fun he => hne (Option.some.inj he).symm)⟩
      have : (erase (some "state") st).isEmpty = false := by
        cases he : erase (some "state") st with
        | nil => rw [he] at hmem; exact absurd hmem List.not_mem_nil
        | cons => rfl
      rw [this, if_neg Bool.false_ne_true] at h
      exact absurd h nofun
  · rw [if_neg hc] at h
    rw [← Except.ok.inj h]
    exact hx

theorem toTensors_unknown {ents : List (Key × Ent)} {f : Flat} {p : Key × Nd} (hp : p ∈ f) (hn : p.1 ∉ ents.map Prod.fst) :
    toTensors ents false f = .error .keys := by
  have : f.all (fun e => (ents.map Prod.fst).contains e.1) = false := by
    rw [List.all_eq_false]
    refine ⟨p, hp, ?_⟩
    rw [List.contains_iff_mem]
    exact hn
  rw [toTensors, this]
  rfl

theorem mapM_conform {f : Flat} : ∀ {ents : List (Key × Ent)} {r : Flat}, ents.mapM (fun e => do
      let x ← found .assertion (lookup e.1 f)
      let y ← toTensor e.2 x
      pure (e.1, y)) = .ok r → Conforms ents r
  | [], r, h => by rw [← Except.ok.inj h]; exact .nil
  | (k, e) :: l, r, h => by
    rw [List.mapM_cons] at h
    obtain ⟨b, hb, h⟩ := bind_eq_ok h
    obtain ⟨c, hc, h⟩ := bind_eq_ok h
    obtain ⟨x, _, hb⟩ := bind_eq_ok hb
    obtain ⟨y, hy, hb⟩ := bind_eq_ok hb
    rw [← Except.ok.inj h, ← Except.ok.inj hb]
    unfold toTensor at hy
    by_cases h1 : x.shape.tail = e.shape
    · rw [if_pos h1] at hy
      by_cases h2 : x.data.all e.valid = true
      · rw [if_pos h2] at hy
        rw [← Except.ok.inj hy]
        exact .cons h1 (List.all_eq_true.1 h2) (mapM_conform hc)
      · rw [if_neg h2] at hy; exact absurd hy nofun
    · rw [if_neg h1] at hy; exact absurd hy nofun

theorem toTensors_conform {ents : List (Key × Ent)} {r : Bool} {f g : Flat} (h : toTensors ents r f = .ok g) : Conforms ents g := by
  unfold toTensors at h
  obtain ⟨u, _, h⟩ := bind_eq_ok h
  exact mapM_conform h

end Verif.Feed
