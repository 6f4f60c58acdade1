import Verif.Gym.LevelSpec
import Verif.Gym.Lemmas

/-! # Lemmas about the registry -/

namespace Verif.Gym

theorem look_filter {α : Type} {name other : Name} (h : name ≠ other) : ∀ (l : List (Name × α)),
    look name (l.filter fun x => x.1 ≠ other) = look name l
  | [] => rfl
  | (n, x) :: l => by
    rw [List.filter_cons]
    split
    · rw [look, look, look_filter h l]
    · rename_i hn
      have e : n = other := by simpa using hn
      rw [look_filter h l, look, if_neg (by rw [e]; exact Ne.symm h)]

theorem filter_shorter {α : Type} {name : Name} : ∀ {l : List (Name × α)}, (look name l).isSome = true →
    (l.filter fun x => x.1 ≠ name).length < l.length
  | [], h => by simp [look] at h
  | (n, x) :: l, h => by
    rw [List.filter_cons]
    split
    · rename_i hn
      rw [look, if_neg (by simpa using hn)] at h
      have := filter_shorter h
      simp only [List.length_cons]
      omega
    · have := List.length_filter_le (fun x : Name × α => decide (x.1 ≠ name)) l
      simp only [List.length_cons]
      omega

theorem base_digits_inj {base : Name} {n m : Nat} (h : base ++ digits n = base ++ digits m) : n = m :=
  digits_inj (List.append_cancel_left h)

theorem fresh_filter (base : Name) (w : Nat) : ∀ (fuel : Nat) (reg : Registry) (v : Nat), w < v →
    freshVersion (reg.filter fun x => x.1 ≠ base ++ digits w) base fuel v = freshVersion reg base fuel v
  | 0, _, _, _ => rfl
  | fuel + 1, reg, v, h => by
    have hne : base ++ digits v ≠ base ++ digits w := fun e => by have := base_digits_inj e; omega
    rw [freshVersion, freshVersion, look_filter hne, fresh_filter base w fuel reg (v + 1) (by omega)]

theorem fresh_ok (base : Name) : ∀ (fuel : Nat) (reg : Registry) (v : Nat), reg.length < fuel →
    ∃ w, v ≤ w ∧ freshVersion reg base fuel v = .ok (base ++ digits w) ∧ look (base ++ digits w) reg = none ∧
      ∀ u, v ≤ u → u < w → (look (base ++ digits u) reg).isSome = true
  | 0, reg, v, h => by omega
  | fuel + 1, reg, v, h => by
    rw [freshVersion]
    by_cases hl : (look (base ++ digits v) reg).isSome = true
    · rw [if_pos hl, ← fresh_filter base v fuel reg (v + 1) (by omega)]
      have := filter_shorter hl
      obtain ⟨w, h1, h2, h3, h4⟩ := fresh_ok base fuel (reg.filter fun x => x.1 ≠ base ++ digits v) (v + 1) (by omega)
      have hne : ∀ u, v < u → base ++ digits u ≠ base ++ digits v := fun u hu e => by have := base_digits_inj e; omega
      refine ⟨w, by omega, h2, ?_, ?_⟩
      · rw [look_filter (hne w (by omega))] at h3
        exact h3
      · intro u hu huw
        by_cases e : u = v
        · rw [e]; exact hl
        · have := h4 u (by omega) huw
          rw [look_filter (hne u (by omega))] at this
          exact this
    · rw [if_neg hl]
      refine ⟨v, Nat.le_refl v, rfl, ?_, fun u h1 h2 => by omega⟩
      cases h : look (base ++ digits v) reg with
      | none => rfl
      | some r => rw [h] at hl; simp at hl

theorem look_put_self {α : Type} {name : Name} {x : α} : ∀ (l : List (Name × α)), look name (put name x l) = some x
  | [] => by simp [put, look]
  | (n, y) :: l => by
    rw [put]
    split
    · rename_i h; rw [look, if_pos h]
    · rename_i h; rw [look, if_neg h, look_put_self l]

theorem look_put_other {α : Type} {name other : Name} {x : α} (h : other ≠ name) : ∀ (l : List (Name × α)),
    look other (put name x l) = look other l
  | [] => by simp [put, look, Ne.symm h]
  | (n, y) :: l => by
    rw [put]
    split
    · rename_i e
      rw [look, look, if_neg (by rw [e]; exact Ne.symm h)]
      rw [if_neg (by rw [e]; exact Ne.symm h)]
    · rw [look, look, look_put_other h l]

/-! ## Versions -/

theorem rsplit_sound : ∀ {n b a : Name}, rsplit n = some (b, a) → n = b ++ dashV ++ a
  | [], b, a, h => by simp [rsplit] at h
  | c :: cs, b, a, h => by
    rw [rsplit] at h
    cases hr : rsplit cs with
    | some p =>
      obtain ⟨b', a'⟩ := p
      rw [hr] at h
      simp only [Option.some.injEq, Prod.mk.injEq] at h
      rw [← h.1, ← h.2, List.cons_append, List.cons_append, ← rsplit_sound hr]
    | none =>
      rw [hr] at h
      dsimp only at h
      cases cs with
      | nil => simp [atVersion] at h
      | cons d rest =>
        rw [atVersion] at h
        split at h
        · rename_i hcd
          simp only [Option.some.injEq, Prod.mk.injEq] at h
          rw [← h.1, ← h.2, hcd.1, hcd.2]
          rfl
        · simp at h

theorem rsplit_digits : ∀ {a : Name}, (∀ c ∈ a, c.isDigit = true) → rsplit a = none
  | [], _ => rfl
  | c :: cs, h => by
    rw [rsplit, rsplit_digits (fun d hd => h d (List.mem_cons_of_mem _ hd))]
    dsimp only
    have hc := h c (List.mem_cons_self ..)
    cases cs with
    | nil => rfl
    | cons d rest =>
      rw [atVersion, if_neg]
      rintro ⟨rfl, -⟩
      revert hc
      decide

theorem rsplit_dashV {a : Name} (h : ∀ c ∈ a, c.isDigit = true) : rsplit (dashV ++ a) = some ([], a) := by
  have e : dashV ++ a = '-' :: 'v' :: a := rfl
  rw [e, rsplit, rsplit, rsplit_digits h]
  dsimp only
  cases a with
  | nil => simp [atVersion]
  | cons d rest => simp [atVersion]

theorem rsplit_append {a : Name} (h : ∀ c ∈ a, c.isDigit = true) : ∀ (b : Name), rsplit (b ++ (dashV ++ a)) = some (b, a)
  | [] => rsplit_dashV h
  | c :: b => by rw [List.cons_append, rsplit, rsplit_append h b]

theorem digits_isDigit (n : Nat) : ∀ c ∈ digits n, c.isDigit = true :=
  fun _ hc => Nat.isDigit_of_mem_toDigits (by decide) (by decide) hc

theorem rsplit_none_append {ds : Name} (h : ∀ c ∈ ds, c.isDigit = true) : ∀ {n : Name}, rsplit n = none → rsplit (n ++ ds) = none
  | [], _ => rsplit_digits h
  | c :: cs, hn => by
    rw [rsplit] at hn
    cases hr : rsplit cs with
    | some p => rw [hr] at hn; simp at hn
    | none =>
      rw [hr] at hn
      dsimp only at hn
      rw [List.cons_append, rsplit, rsplit_none_append h hr]
      dsimp only
      cases cs with
      | cons d rest =>
        rw [atVersion] at hn
        rw [List.cons_append, atVersion]
        split
        · rename_i hcd; rw [if_pos hcd] at hn; simp at hn
        · rfl
      | nil =>
        cases ds with
        | nil => rfl
        | cons d rest =>
          rw [List.nil_append, atVersion, if_neg]
          rintro ⟨-, rfl⟩
          have := h 'v' (List.mem_cons_self ..)
          revert this
          decide

theorem rsplit_some_append {ds : Name} (h : ∀ c ∈ ds, c.isDigit = true) : ∀ {n b a : Name}, rsplit n = some (b, a) →
    rsplit (n ++ ds) = some (b, a ++ ds)
  | [], b, a, hn => by simp [rsplit] at hn
  | c :: cs, b, a, hn => by
    rw [rsplit] at hn
    cases hr : rsplit cs with
    | some p =>
      obtain ⟨b', a'⟩ := p
      rw [hr] at hn
      simp only [Option.some.injEq, Prod.mk.injEq] at hn
      rw [List.cons_append, rsplit, rsplit_some_append h hr, ← hn.1, ← hn.2]
    | none =>
      rw [hr] at hn
      dsimp only at hn
      rw [List.cons_append, rsplit, rsplit_none_append h hr]
      dsimp only
      cases cs with
      | nil => simp [atVersion] at hn
      | cons d rest =>
        rw [atVersion] at hn
        rw [List.cons_append, atVersion]
        split at hn
        · rename_i hcd
          rw [if_pos hcd]
          simp only [Option.some.injEq, Prod.mk.injEq] at hn
          rw [← hn.1, ← hn.2]
        · simp at hn

/-- The name without its version. -/
def baseOf (n : Name) : Option Name := (rsplit n).map (·.1)

theorem rsplit_no : ∀ {v : Name}, ¬ dashV <:+: v → rsplit v = none
  | [], _ => rfl
  | c :: cs, h => by
    have hcs : ¬ dashV <:+: cs := fun h' => h (h'.trans (List.suffix_cons c cs).isInfix)
    rw [rsplit, rsplit_no hcs]
    dsimp only
    cases cs with
    | nil => rfl
    | cons d rest =>
      rw [atVersion, if_neg]
      rintro ⟨rfl, rfl⟩
      exact h ⟨[], rest, rfl⟩

theorem rsplit_yes : ∀ {v : Name}, dashV <:+: v → (rsplit v).isSome = true
  | [], h => by
    have := List.infix_nil.mp h
    simp [dashV] at this
  | c :: cs, h => by
    rw [rsplit]
    cases hr : rsplit cs with
    | some p => rfl
    | none =>
      dsimp only
      rcases List.infix_cons_iff.mp h with h | h
      · obtain ⟨t, ht⟩ := h
        have e : dashV ++ t = '-' :: 'v' :: t := rfl
        rw [e] at ht
        simp only [List.cons.injEq] at ht
        rw [← ht.1, ← ht.2, atVersion]
        simp
      · have := rsplit_yes h
        rw [hr] at this
        simp at this

theorem rsplit_last : ∀ {n b a : Name}, rsplit n = some (b, a) → ¬ dashV <:+: a
  | [], b, a, h => by simp [rsplit] at h
  | c :: cs, b, a, h => by
    rw [rsplit] at h
    cases hr : rsplit cs with
    | some p =>
      rw [hr] at h
      simp only [Option.some.injEq, Prod.mk.injEq] at h
      have := rsplit_last (n := cs) (b := p.1) (a := p.2) hr
      rw [← h.2]
      exact this
    | none =>
      rw [hr] at h
      dsimp only at h
      cases cs with
      | nil => simp [atVersion] at h
      | cons d rest =>
        rw [atVersion] at h
        split at h
        · simp only [Option.some.injEq, Prod.mk.injEq] at h
          intro hi
          have := rsplit_yes (h.2 ▸ hi |>.trans (List.suffix_cons d rest).isInfix)
          rw [hr] at this
          simp at this
        · simp at h

theorem rsplit_dashV' {a : Name} (h : ¬ dashV <:+: a) : rsplit (dashV ++ a) = some ([], a) := by
  have e : dashV ++ a = '-' :: 'v' :: a := rfl
  rw [e, rsplit, rsplit, rsplit_no h]
  dsimp only
  cases a with
  | nil => simp [atVersion]
  | cons d rest => simp [atVersion]

theorem rsplit_append' {a : Name} (h : ¬ dashV <:+: a) : ∀ (b : Name), rsplit (b ++ (dashV ++ a)) = some (b, a)
  | [] => rsplit_dashV' h
  | c :: b => by rw [List.cons_append, rsplit, rsplit_append' h b]

theorem version_iff {base n : Name} : VersionOf base n ↔ baseOf n = some base := by
  rw [baseOf]
  constructor
  · rintro ⟨v, rfl, h⟩
    rw [rsplit_append' h]
    rfl
  · intro h
    cases hr : rsplit n with
    | none => rw [hr] at h; simp at h
    | some p =>
      rw [hr] at h
      simp only [Option.map_some, Option.some.injEq] at h
      refine ⟨p.2, ?_, rsplit_last (b := p.1) (a := p.2) hr⟩
      rw [← h, ← List.append_assoc]
      exact rsplit_sound hr

theorem freshName_ok (reg : Registry) {level : Name} (hv : (rsplit level).isSome = true) :
    ∃ new, freshName reg level = .ok new ∧ look new reg = none ∧ baseOf new = baseOf level := by
  cases h : rsplit level with
  | none => rw [h] at hv; simp at hv
  | some p =>
    obtain ⟨b, a⟩ := p
    rw [freshName, h]
    dsimp only
    cases hp : parseNat a with
    | none =>
      dsimp only
      obtain ⟨w, -, h2, h3, -⟩ := fresh_ok level (reg.length + 1) reg 0 (by omega)
      refine ⟨_, h2, h3, ?_⟩
      rw [baseOf, baseOf, h, rsplit_some_append (digits_isDigit w) h]
      rfl
    | some v =>
      dsimp only
      obtain ⟨w, -, h2, h3, -⟩ := fresh_ok (b ++ dashV) (reg.length + 1) reg (v + 1) (by omega)
      refine ⟨_, h2, h3, ?_⟩
      rw [baseOf, baseOf, h, List.append_assoc, rsplit_append (digits_isDigit w)]
      rfl

/-! ## The search for a version -/

/-- What the search finds. -/
theorem search_ok {reg : Registry} {steps : Steps} {base : Name} : ∀ {names : List Name} {found : Option Name},
    (∀ n ∈ names, (rsplit n).isSome = true ∧ (look n reg).isSome = true) →
    ∃ r, search reg steps base names found = .ok r ∧
      (r = none → found = none ∧ ∀ n ∈ names, baseOf n ≠ some base) ∧
      (∀ n, r = some n → found = some n ∨ n ∈ names ∧ baseOf n = some base) ∧
      ∀ k, steps = .limit k → (∃ n ∈ names, baseOf n = some base ∧ (look n reg).map (·.steps) = some (some k)) →
        ∀ n, r = some n → (look n reg).map (·.steps) = some (some k)
  | [], found, _ => ⟨found, rfl, by simp, fun n h => .inl h, by simp⟩
  | name :: rest, found, h => by
    have hrest : ∀ n ∈ rest, (rsplit n).isSome = true ∧ (look n reg).isSome = true := fun n hn => h n (List.mem_cons_of_mem _ hn)
    obtain ⟨h1, h2⟩ := h name (List.mem_cons_self ..)
    obtain ⟨⟨b, a⟩, hb⟩ := Option.isSome_iff_exists.mp h1
    obtain ⟨r, hr⟩ := Option.isSome_iff_exists.mp h2
    have hbase : baseOf name = some b := by rw [baseOf, hb]; rfl
    rw [search, hb]
    dsimp only
    by_cases e : base = b
    · rw [if_pos e, hr]
      dsimp only
      have skip : ∀ found', (∀ n, found' = some n → found = some n ∨ n = name) → found'.isSome = true →
          (∀ k, steps = .limit k → r.steps ≠ some k) → ∃ r', search reg steps base rest found' = .ok r' ∧
            (r' = none → found = none ∧ ∀ n ∈ name :: rest, baseOf n ≠ some base) ∧
            (∀ n, r' = some n → found = some n ∨ n ∈ name :: rest ∧ baseOf n = some base) ∧
            ∀ k, steps = .limit k → (∃ n ∈ name :: rest, baseOf n = some base ∧ (look n reg).map (·.steps) = some (some k)) →
              ∀ n, r' = some n → (look n reg).map (·.steps) = some (some k) := by
        intro found' hf hfs hk
        obtain ⟨r', g1, g2, g3, g4⟩ := search_ok (steps := steps) (base := base) (found := found') hrest
        refine ⟨r', g1, ?_, ?_, ?_⟩
        · intro hn
          rw [(g2 hn).1] at hfs
          simp at hfs
        · intro n hn
          rcases g3 n hn with h' | h'
          · rcases hf n h' with h'' | h''
            · exact .inl h''
            · exact .inr ⟨by rw [h'']; exact List.mem_cons_self .., by rw [h'', hbase, e]⟩
          · exact .inr ⟨List.mem_cons_of_mem _ h'.1, h'.2⟩
        · rintro k hs ⟨n, hn, hnb, hns⟩ m hm
          rcases List.mem_cons.mp hn with rfl | hn
          · rw [hr] at hns
            simp only [Option.map_some, Option.some.injEq] at hns
            exact absurd hns (hk k hs)
          · exact g4 k hs ⟨n, hn, hnb, hns⟩ m hm
      have hfound : ∀ n, some (firstOf name found) = some n → found = some n ∨ n = name := by
        intro n hn
        cases found with
        | none => right; simpa [firstOf] using hn.symm
        | some f => left; exact hn
      by_cases c1 : steps = .off ∧ r.steps.isSome = true
      · rw [if_pos c1]
        exact skip _ hfound rfl (fun k hk => by rw [c1.1] at hk; simp at hk)
      · rw [if_neg c1]
        by_cases c2 : steps.same r.steps = true
        · rw [if_neg (by simp [c2])]
          refine ⟨some name, rfl, by simp, ?_, ?_⟩
          · intro n hn
            simp only [Option.some.injEq] at hn
            subst hn
            exact .inr ⟨List.mem_cons_self .., by rw [hbase, e]⟩
          · intro k hk _ n hn
            simp only [Option.some.injEq] at hn
            subst hn
            rw [hr]
            rw [hk] at c2
            cases hst : r.steps with
            | none => rw [hst] at c2; simp [Steps.same] at c2
            | some m =>
              rw [hst] at c2
              simp only [Steps.same, beq_iff_eq] at c2
              simp [hst, c2]
        · rw [if_pos (by simpa using c2)]
          exact skip _ hfound rfl (fun k hk hs => c2 (by rw [hk, hs]; simp [Steps.same]))
    · rw [if_neg e]
      obtain ⟨r', g1, g2, g3, g4⟩ := search_ok (steps := steps) (base := base) (found := found) hrest
      have hne : baseOf name ≠ some base := by rw [hbase]; simpa using Ne.symm e
      refine ⟨r', g1, ?_, ?_, ?_⟩
      · intro hn
        refine ⟨(g2 hn).1, fun n hm => ?_⟩
        rcases List.mem_cons.mp hm with rfl | hm
        · exact hne
        · exact (g2 hn).2 n hm
      · intro n hn
        rcases g3 n hn with h' | h'
        · exact .inl h'
        · exact .inr ⟨List.mem_cons_of_mem _ h'.1, h'.2⟩
      · rintro k hs ⟨n, hn, hnb, hns⟩ m hm
        rcases List.mem_cons.mp hn with rfl | hn
        · exact absurd hnb hne
        · exact g4 k hs ⟨n, hn, hnb, hns⟩ m hm

theorem mem_look {α : Type} : ∀ {l : List (Name × α)} {x : Name × α}, x ∈ l → (look x.1 l).isSome = true
  | [], x, h => by simp at h
  | (n, y) :: l, x, h => by
    rw [look]
    split
    · rfl
    · rename_i hne
      rcases List.mem_cons.mp h with rfl | h
      · exact absurd rfl hne
      · exact mem_look h

theorem look_mem {α : Type} {name : Name} : ∀ {l : List (Name × α)} {r : α}, look name l = some r → (name, r) ∈ l
  | [], r, h => by simp [look] at h
  | (n, y) :: l, r, h => by
    rw [look] at h
    split at h
    · rename_i e
      simp only [Option.some.injEq] at h
      rw [e, h]
      exact List.mem_cons_self ..
    · exact List.mem_cons_of_mem _ (look_mem h)

end Verif.Gym
