import Verif.Obs.Spec

/-!
# The forms of observe: lemmas
-/

namespace Verif.Obs

theorem codeOf_iff {c : Code} {t : Int} : CodeOf c t ↔ c.toInt = t := by
  constructor
  · intro h; cases h <;> rfl
  · rintro rfl
    rcases c with b | b | z
    · cases b
      · exact .pyFalse
      · exact .pyTrue
    · cases b
      · exact .npFalse
      · exact .npTrue
    · exact .num z

theorem asarray_one {α β : Type} {f : α → β} {a : Arg α} {ys : List β} : asarray f a = .one ys ↔ ∃ xs, Entries a xs ∧ xs.map f = ys := by
  constructor
  · intro h
    cases a with
    | single x => cases h
    | array0 x => cases h
    | list xs => exact ⟨xs, .list xs, Arr.one.inj h⟩
    | array xs => exact ⟨xs, .array xs, Arr.one.inj h⟩
    | nested r c => cases h
  · rintro ⟨xs, h, rfl⟩
    cases h <;> rfl

theorem asarray_id {α : Type} {a : Arg α} {ys : List α} : asarray id a = .one ys ↔ Entries a ys := by
  rw [asarray_one]
  constructor
  · rintro ⟨xs, h, rfl⟩; rw [List.map_id]; exact h
  · exact fun h => ⟨ys, h, List.map_id ys⟩

theorem entries_batched {α : Type} {a : Arg α} {xs : List α} (h : Entries a xs) : a.batched = true ∧ a.count = xs.length := by
  cases h <;> exact ⟨rfl, rfl⟩

theorem not_batched {α : Type} {a : Arg α} (h : ¬a.batched = true) : ∃ x, One a x := by
  cases a with
  | single x => exact ⟨x, .single x⟩
  | array0 x => exact ⟨x, .array0 x⟩
  | list xs => exact absurd rfl h
  | array xs => exact absurd rfl h
  | nested r c => exact absurd rfl h

theorem one_batched {α : Type} {a : Arg α} {x : α} (h : One a x) : a.batched = false := by cases h <;> rfl

theorem single_one {α β : Type} {f : α → β} {a : Arg α} {x : α} (h : One a x) : single f a = .one [f x] := by cases h <;> rfl

section
variable {R : Type} [DecidableEq R] [Zero R]

theorem rewardOr_one {count : Nat} {a : Arg R} {ys : List R} :
    rewardOr count a = .one ys ↔ Entries a ys ∨ a = .single 0 ∧ ys = List.replicate count 0 := by
  cases a with
  | single x =>
    unfold rewardOr
    dsimp only
    constructor
    · intro h
      split at h
      · rename_i e; exact Or.inr ⟨by rw [e], (Arr.one.inj h).symm⟩
      · cases h
    · rintro (h | ⟨e, rfl⟩)
      · cases h
      · cases e; rw [if_pos rfl]
  | array0 x => exact ⟨fun h => (by cases h), fun h => (by rcases h with h | ⟨h, _⟩ <;> cases h)⟩
  | list xs => exact ⟨fun h => Or.inl (asarray_id.1 h), fun h => (h.elim asarray_id.2 (fun h => nomatch h.1))⟩
  | array xs => exact ⟨fun h => Or.inl (asarray_id.1 h), fun h => (h.elim asarray_id.2 (fun h => nomatch h.1))⟩
  | nested r c => exact ⟨fun h => (by cases h), fun h => (by rcases h with h | ⟨h, _⟩ <;> cases h)⟩

theorem terminalOr_one {count : Nat} {a : Arg Code} {ys : List Int} :
    terminalOr count a = .one ys ↔ (∃ xs, Entries a xs ∧ xs.map Code.toInt = ys) ∨ a = .single (.py false) ∧ ys = List.replicate count 0 := by
  unfold terminalOr
  split
  · constructor
    · exact fun h => Or.inr ⟨rfl, (Arr.one.inj h).symm⟩
    · rintro (⟨xs, h, _⟩ | ⟨_, rfl⟩)
      · cases h
      · rfl
  · rename_i hne
    rw [asarray_one]
    constructor
    · exact fun h => Or.inl h
    · rintro (h | ⟨h, _⟩)
      · exact h
      · exact absurd h hne

theorem parallelOr_one {n count : Nat} {a : Arg Int} {ps : List Int} :
    parallelOr n count a = .ok (.one ps) ↔
      Entries a ps ∨ a = .single 0 ∧ count = n ∧ ps = (List.range count).map (fun (k : Nat) => (k : Int)) := by
  cases a with
  | single x =>
    unfold parallelOr
    dsimp only
    constructor
    · intro h
      split at h
      · rename_i e
        split at h
        · rename_i e'
          exact Or.inr ⟨by rw [e], e', (Arr.one.inj (Except.ok.inj h)).symm⟩
        · cases h
      · cases h
    · rintro (h | ⟨e, e', rfl⟩)
      · cases h
      · cases e; rw [if_pos rfl, if_pos e']
  | array0 x => exact ⟨fun h => (by cases h), fun h => (by rcases h with h | ⟨h, _⟩ <;> cases h)⟩
  | list xs =>
    exact ⟨fun h => Or.inl (asarray_id.1 (Except.ok.inj h)), fun h => (h.elim (fun h => congrArg Except.ok (asarray_id.2 h)) (fun h => nomatch h.1))⟩
  | array xs =>
    exact ⟨fun h => Or.inl (asarray_id.1 (Except.ok.inj h)), fun h => (h.elim (fun h => congrArg Except.ok (asarray_id.2 h)) (fun h => nomatch h.1))⟩
  | nested r c => exact ⟨fun h => (by cases h), fun h => (by rcases h with h | ⟨h, _⟩ <;> cases h)⟩

theorem zip3_maps {α β γ : Type} : ∀ {ps : List α} {ts : List β} {rs : List γ}, rs.length = ps.length → ts.length = ps.length →
    (ps.zip (ts.zip rs)).map (fun e => e.1) = ps ∧ (ps.zip (ts.zip rs)).map (fun e => e.2.1) = ts ∧ (ps.zip (ts.zip rs)).map (fun e => e.2.2) = rs
  | [], [], [], _, _ => ⟨rfl, rfl, rfl⟩
  | [], _ :: _, _, _, h => by cases h
  | [], [], _ :: _, h, _ => by cases h
  | _ :: _, [], _, _, h => by cases h
  | _ :: _, _ :: _, [], h, _ => by cases h
  | p :: ps, t :: ts, r :: rs, h1, h2 => by
    obtain ⟨e1, e2, e3⟩ := zip3_maps (ps := ps) (ts := ts) (rs := rs) (Nat.succ.inj h1) (Nat.succ.inj h2)
    refine ⟨?_, ?_, ?_⟩
    · rw [List.zip_cons_cons, List.zip_cons_cons, List.map_cons, e1]
    · rw [List.zip_cons_cons, List.zip_cons_cons, List.map_cons, e2]
    · rw [List.zip_cons_cons, List.zip_cons_cons, List.map_cons, e3]

theorem maps_zip3 {α β γ : Type} : ∀ l : List (α × β × γ),
    (l.map (fun e => e.1)).zip ((l.map (fun e => e.2.1)).zip (l.map (fun e => e.2.2))) = l
  | [] => rfl
  | e :: l => by
    rw [List.map_cons, List.map_cons, List.map_cons, List.zip_cons_cons, List.zip_cons_cons, maps_zip3 l]

omit [DecidableEq R] [Zero R] in
theorem consistent_ok {r : Arr R} {t p : Arr Int} {l : List (Int × Int × R)} : consistent r t p = .ok l ↔
    l ≠ [] ∧ r = .one (l.map (fun e => e.2.2)) ∧ t = .one (l.map (fun e => e.2.1)) ∧ p = .one (l.map (fun e => e.1)) := by
  constructor
  · intro h
    unfold consistent at h
    split at h
    · cases h
    · cases h
    · rename_i ps
      split at h
      · cases h
      · rename_i hps
        split at h
        · cases h
        · cases h
        · rename_i rs
          split at h
          · cases h
          · rename_i hr
            split at h
            · cases h
            · cases h
            · rename_i ts
              split at h
              · cases h
              · rename_i ht
                have e := Except.ok.inj h
                obtain ⟨e1, e2, e3⟩ := zip3_maps (Decidable.not_not.1 hr) (Decidable.not_not.1 ht)
                rw [← e]
                refine ⟨?_, by rw [e3], by rw [e2], by rw [e1]⟩
                intro h0
                rw [h0] at e1
                exact hps (by rw [← e1]; rfl)
  · rintro ⟨hl, rfl, rfl, rfl⟩
    unfold consistent
    dsimp only
    rw [List.length_map, List.length_map, List.length_map, if_neg (fun h => hl (List.length_eq_zero_iff.1 h)), if_neg (fun h => h rfl),
      if_neg (fun h => h rfl), maps_zip3]

theorem eq_replicate {α β : Type} {f : α → β} {l : List α} {n : Nat} {b : β} :
    l.map f = List.replicate n b ↔ l.length = n ∧ ∀ e ∈ l, f e = b := by
  rw [List.eq_replicate_iff, List.length_map]
  constructor
  · exact fun h => ⟨h.1, fun e he => h.2 _ (List.mem_map_of_mem he)⟩
  · rintro ⟨h1, h2⟩
    refine ⟨h1, fun x hx => ?_⟩
    obtain ⟨e, he, rfl⟩ := List.mem_map.1 hx
    exact h2 e he

theorem eq_range {α : Type} {f : α → Int} {l : List α} {n : Nat} :
    l.map f = (List.range n).map (fun (k : Nat) => (k : Int)) ↔ l.length = n ∧ ∀ (i : Nat) e, l[i]? = some e → f e = (i : Int) := by
  constructor
  · intro h
    have hl : l.length = n := by have := congrArg List.length h; simpa using this
    refine ⟨hl, fun i e he => ?_⟩
    have hi : i < n := by rw [← hl]; exact (List.getElem?_eq_some_iff.1 he).1
    have h2 := congrArg (fun m => m[i]?) h
    rw [List.getElem?_map, List.getElem?_map, he, List.getElem?_range hi] at h2
    exact Option.some.inj h2
  · rintro ⟨hl, h⟩
    apply List.ext_getElem?
    intro i
    rw [List.getElem?_map, List.getElem?_map]
    by_cases hi : i < n
    · rw [List.getElem?_range hi, List.getElem?_eq_getElem (by rw [hl]; exact hi)]
      exact congrArg some (h i _ (List.getElem?_eq_getElem (by rw [hl]; exact hi)))
    · rw [List.getElem?_eq_none (by rw [hl]; omega), List.getElem?_eq_none (by rw [List.length_range]; omega)]
      rfl

omit [DecidableEq R] [Zero R] in
theorem codes_iff {cs : List Code} {l : List (Int × Int × R)} : cs.map Code.toInt = l.map (fun e => e.2.1) ↔
    cs.length = l.length ∧ ∀ (i : Nat) c e, cs[i]? = some c → l[i]? = some e → CodeOf c e.2.1 := by
  constructor
  · intro h
    refine ⟨by have := congrArg List.length h; simpa using this, fun i c e hc he => codeOf_iff.2 ?_⟩
    have h2 := congrArg (fun m => m[i]?) h
    rw [List.getElem?_map, List.getElem?_map, hc, he] at h2
    exact Option.some.inj h2
  · rintro ⟨hl, h⟩
    apply List.ext_getElem?
    intro i
    rw [List.getElem?_map, List.getElem?_map]
    by_cases hi : i < cs.length
    · have hi' : i < l.length := by omega
      rw [List.getElem?_eq_getElem hi, List.getElem?_eq_getElem hi']
      exact congrArg some (codeOf_iff.1 (h i _ _ (List.getElem?_eq_getElem hi) (List.getElem?_eq_getElem hi')))
    · rw [List.getElem?_eq_none (by omega), List.getElem?_eq_none (by omega)]
      rfl

theorem entries_length {α : Type} {a : Arg α} {xs ys : List α} (h : Entries a xs) (h' : Entries a ys) : xs = ys := by
  cases h <;> cases h' <;> rfl

/-- Everything batched: reward, terminal and parallel as expected. -/
theorem forms_iff {n : Nat} {reward : Arg R} {terminal : Arg Code} {parallel : Arg Int} {l : List (Int × Int × R)} :
    forms n reward terminal parallel = .ok l ↔ Means n reward terminal parallel l := by
  have hforms : forms n reward terminal parallel = .ok l ↔ l ≠ [] ∧ arrays n reward terminal parallel =
      .ok (.one (l.map (fun e => e.2.2)), .one (l.map (fun e => e.2.1)), .one (l.map (fun e => e.1))) := by
    unfold forms
    cases h : arrays n reward terminal parallel with
    | error e => exact ⟨nofun, fun h => nomatch h.2⟩
    | ok x =>
      obtain ⟨r, t, p⟩ := x
      dsimp only
      rw [consistent_ok]
      constructor
      · rintro ⟨h1, rfl, rfl, rfl⟩; exact ⟨h1, rfl⟩
      · rintro ⟨h1, h2⟩; cases h2; exact ⟨h1, rfl, rfl, rfl⟩
  rw [hforms]
  have hbatch : ∀ m, Means n reward terminal parallel m → (reward.batched = true ∨ terminal.batched = true ∨ parallel.batched = true) →
      m ≠ [] ∧ RewardsOf reward m ∧ TerminalsOf terminal m ∧ ParallelOf n reward terminal parallel m := by
    intro m hm hb
    cases hm with
    | one h1 h2 h3 h4 =>
      rw [one_batched h1, one_batched h2, one_batched h4] at hb
      simp at hb
    | many h1 h2 h3 h4 => exact ⟨h1, h2, h3, h4⟩
  unfold arrays
  split
  · rename_i hr
    have key : (match parallelOr n reward.count parallel with
        | .error e => .error e
        | .ok p => .ok (asarray id reward, terminalOr reward.count terminal, p)) =
        Except.ok (ε := Err) (Arr.one (l.map (fun e => e.2.2)), Arr.one (l.map (fun e => e.2.1)), Arr.one (l.map (fun e => e.1))) ↔
        asarray id reward = .one (l.map (fun e => e.2.2)) ∧ terminalOr reward.count terminal = .one (l.map (fun e => e.2.1)) ∧
          parallelOr n reward.count parallel = .ok (.one (l.map (fun e => e.1))) := by
      cases parallelOr n reward.count parallel with
      | error e => exact ⟨nofun, fun h => nomatch h.2.2⟩
      | ok p => simp
    refine Iff.trans (and_congr_right (fun _ => key)) ?_
    rw [asarray_id, terminalOr_one, parallelOr_one]
    constructor
    · rintro ⟨hl, h1, h2, h3⟩
      have hc : reward.count = l.length := by rw [(entries_batched h1).2, List.length_map]
      refine .many hl (Or.inl h1) ?_ ?_
      · rcases h2 with ⟨xs, hx, e⟩ | ⟨e1, e2⟩
        · exact Or.inl ⟨xs, hx, codes_iff.1 e⟩
        · exact Or.inr ⟨e1, (eq_replicate.1 e2).2⟩
      · rcases h3 with h3 | ⟨e1, e2, e3⟩
        · exact Or.inl h3
        · exact Or.inr ⟨e1, Or.inl ⟨_, h1⟩, by rw [← hc]; exact e2, (eq_range.1 e3).2⟩
    · intro hm
      obtain ⟨hl, h1, h2, h3⟩ := hbatch l hm (Or.inl hr)
      have h1 : Entries reward (l.map (fun e => e.2.2)) := by
        rcases h1 with h1 | ⟨e, _⟩
        · exact h1
        · rw [e] at hr; cases hr
      have hc : reward.count = l.length := by rw [(entries_batched h1).2, List.length_map]
      refine ⟨hl, h1, ?_, ?_⟩
      · rcases h2 with ⟨xs, hx, e⟩ | ⟨e1, e2⟩
        · exact Or.inl ⟨xs, hx, codes_iff.2 e⟩
        · exact Or.inr ⟨e1, eq_replicate.2 ⟨hc.symm, e2⟩⟩
      · rcases h3 with h3 | ⟨e1, _, e2, e3⟩
        · exact Or.inl h3
        · exact Or.inr ⟨e1, by rw [hc]; exact e2, eq_range.2 ⟨hc.symm, e3⟩⟩
  · rename_i hr
    split
    · rename_i ht
      have key : (match parallelOr n terminal.count parallel with
          | .error e => .error e
          | .ok p => .ok (rewardOr terminal.count reward, asarray Code.toInt terminal, p)) =
          Except.ok (ε := Err) (Arr.one (l.map (fun e => e.2.2)), Arr.one (l.map (fun e => e.2.1)), Arr.one (l.map (fun e => e.1))) ↔
          rewardOr terminal.count reward = .one (l.map (fun e => e.2.2)) ∧ asarray Code.toInt terminal = .one (l.map (fun e => e.2.1)) ∧
            parallelOr n terminal.count parallel = .ok (.one (l.map (fun e => e.1))) := by
        cases parallelOr n terminal.count parallel with
        | error e => exact ⟨nofun, fun h => nomatch h.2.2⟩
        | ok p => simp
      refine Iff.trans (and_congr_right (fun _ => key)) ?_
      rw [asarray_one, rewardOr_one, parallelOr_one]
      constructor
      · rintro ⟨hl, h1, ⟨xs, hx, e⟩, h3⟩
        have hc : terminal.count = l.length := by rw [(entries_batched hx).2]; exact (codes_iff.1 e).1
        refine .many hl ?_ (Or.inl ⟨xs, hx, codes_iff.1 e⟩) ?_
        · rcases h1 with h1 | ⟨e1, e2⟩
          · exact Or.inl h1
          · exact Or.inr ⟨e1, (eq_replicate.1 e2).2⟩
        · rcases h3 with h3 | ⟨e1, e2, e3⟩
          · exact Or.inl h3
          · exact Or.inr ⟨e1, Or.inr ⟨_, hx⟩, by rw [← hc]; exact e2, (eq_range.1 e3).2⟩
      · intro hm
        obtain ⟨hl, h1, h2, h3⟩ := hbatch l hm (Or.inr (Or.inl ht))
        obtain ⟨xs, hx, e⟩ : ∃ xs, Entries terminal xs ∧ xs.length = l.length ∧
            ∀ (i : Nat) c e, xs[i]? = some c → l[i]? = some e → CodeOf c e.2.1 := by
          rcases h2 with h2 | ⟨e, _⟩
          · exact h2
          · rw [e] at ht; cases ht
        have hc : terminal.count = l.length := by rw [(entries_batched hx).2]; exact e.1
        refine ⟨hl, ?_, ⟨xs, hx, codes_iff.2 e⟩, ?_⟩
        · rcases h1 with h1 | ⟨e1, e2⟩
          · exact Or.inl h1
          · exact Or.inr ⟨e1, eq_replicate.2 ⟨hc.symm, e2⟩⟩
        · rcases h3 with h3 | ⟨e1, _, e2, e3⟩
          · exact Or.inl h3
          · exact Or.inr ⟨e1, by rw [hc]; exact e2, eq_range.2 ⟨hc.symm, e3⟩⟩
    · rename_i ht
      obtain ⟨r, hor⟩ := not_batched hr
      obtain ⟨c, hot⟩ := not_batched ht
      split
      · rename_i hp
        have key : (Except.ok (rewardOr parallel.count reward, terminalOr parallel.count terminal, asarray id parallel)) =
            Except.ok (ε := Err) (Arr.one (l.map (fun e => e.2.2)), Arr.one (l.map (fun e => e.2.1)), Arr.one (l.map (fun e => e.1))) ↔
            rewardOr parallel.count reward = .one (l.map (fun e => e.2.2)) ∧ terminalOr parallel.count terminal = .one (l.map (fun e => e.2.1)) ∧
              asarray id parallel = .one (l.map (fun e => e.1)) := by
          rw [Except.ok.injEq, Prod.mk.injEq, Prod.mk.injEq]
        rw [key, asarray_id, rewardOr_one, terminalOr_one]
        constructor
        · rintro ⟨hl, h1, h2, h3⟩
          refine .many hl ?_ ?_ (Or.inl h3)
          · rcases h1 with h1 | ⟨e1, e2⟩
            · exact Or.inl h1
            · exact Or.inr ⟨e1, (eq_replicate.1 e2).2⟩
          · rcases h2 with ⟨xs, hx, e⟩ | ⟨e1, e2⟩
            · exact Or.inl ⟨xs, hx, codes_iff.1 e⟩
            · exact Or.inr ⟨e1, (eq_replicate.1 e2).2⟩
        · intro hm
          obtain ⟨hl, h1, h2, h3⟩ := hbatch l hm (Or.inr (Or.inr hp))
          have h3 : Entries parallel (l.map (fun e => e.1)) := by
            rcases h3 with h3 | ⟨e, _⟩
            · exact h3
            · rw [e] at hp; cases hp
          have hc : parallel.count = l.length := by rw [(entries_batched h3).2, List.length_map]
          refine ⟨hl, ?_, ?_, h3⟩
          · rcases h1 with h1 | ⟨e1, e2⟩
            · exact Or.inl h1
            · exact Or.inr ⟨e1, eq_replicate.2 ⟨hc.symm, e2⟩⟩
          · rcases h2 with ⟨xs, hx, e⟩ | ⟨e1, e2⟩
            · exact Or.inl ⟨xs, hx, codes_iff.2 e⟩
            · exact Or.inr ⟨e1, eq_replicate.2 ⟨hc.symm, e2⟩⟩
      · rename_i hp
        obtain ⟨p, hop⟩ := not_batched hp
        rw [single_one hor, single_one hot, single_one hop]
        constructor
        · rintro ⟨hl, h⟩
          have h := Except.ok.inj h
          rw [Prod.mk.injEq, Prod.mk.injEq] at h
          obtain ⟨h1, h2, h3⟩ := h
          have h1 := Arr.one.inj h1
          have h2 := Arr.one.inj h2
          have h3 := Arr.one.inj h3
          match l, hl with
          | [], hl => exact absurd rfl hl
          | [(p', t', r')], _ =>
            cases h1; cases h2; cases h3
            exact .one hor hot (codeOf_iff.2 rfl) hop
          | _ :: _ :: _, _ => cases h1
        · intro hm
          cases hm with
          | one h1 h2 h3 h4 =>
            have e1 : ∀ {α : Type} {a : Arg α} {x y : α}, One a x → One a y → x = y := by
              intro α a x y h h'; cases h <;> cases h' <;> rfl
            rw [e1 hor h1, e1 hot h2, e1 hop h4, codeOf_iff.1 h3]
            exact ⟨nofun, rfl⟩
          | many hl h1 h2 h3 =>
            exfalso
            rcases h3 with h3 | ⟨_, h4 | h4, _⟩
            · exact hp (entries_batched h3).1
            · obtain ⟨xs, hx⟩ := h4; exact hr (entries_batched hx).1
            · obtain ⟨xs, hx⟩ := h4; exact ht (entries_batched hx).1

end

end Verif.Obs
