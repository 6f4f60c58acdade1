import Verif.Gym.Spec

/-! # Lemmas about names and dictionaries -/

namespace Verif.Gym

theorem digits_inj {n m : Nat} (h : digits n = digits m) : n = m := by
  have h1 := Nat.ofDigitChars_ten_toDigits (n := n)
  have h2 := Nat.ofDigitChars_ten_toDigits (n := m)
  unfold digits at h
  rw [h] at h1
  omega

theorem digits_clean (n : Nat) : '_' ∉ digits n := Nat.underscore_not_in_toDigits

theorem tpl_clean (n : Nat) : '_' ∉ tpl ++ digits n := by
  intro h
  rcases List.mem_append.mp h with h | h
  · revert h; decide
  · exact digits_clean n h

theorem mdc_clean (n : Nat) : '_' ∉ mdc ++ digits n := by
  intro h
  rcases List.mem_append.mp h with h | h
  · revert h; decide
  · exact digits_clean n h

theorem before_clean : ∀ {n : Name}, '_' ∉ n → beforeUnderscore n = n
  | [], _ => rfl
  | c :: cs, h => by
    rw [List.mem_cons, not_or] at h
    rw [beforeUnderscore, if_neg (fun e => h.1 e.symm), before_clean h.2]

theorem after_clean : ∀ {n : Name}, '_' ∉ n → afterUnderscore n = none
  | [], _ => rfl
  | c :: cs, h => by
    rw [List.mem_cons, not_or] at h
    rw [afterUnderscore, if_neg (fun e => h.1 e.symm), after_clean h.2]

theorem before_append : ∀ {n : Name} (m : Name), '_' ∉ n → beforeUnderscore (n ++ '_' :: m) = n
  | [], _, _ => rfl
  | c :: cs, m, h => by
    rw [List.mem_cons, not_or] at h
    rw [List.cons_append, beforeUnderscore, if_neg (fun e => h.1 e.symm), before_append m h.2]

theorem after_append : ∀ {n : Name} (m : Name), '_' ∉ n → afterUnderscore (n ++ '_' :: m) = some m
  | [], _, _ => rfl
  | c :: cs, m, h => by
    rw [List.mem_cons, not_or] at h
    rw [List.cons_append, afterUnderscore, if_neg (fun e => h.1 e.symm), after_append m h.2]

/-! ## Dictionaries -/

theorem look_none {α : Type} {name : Name} : ∀ {l : List (Name × α)}, (∀ x ∈ l, x.1 ≠ name) → look name l = none
  | [], _ => rfl
  | (n, x) :: rest, h => by
    rw [look, if_neg (h (n, x) (List.mem_cons_self ..)), look_none (fun y hy => h y (List.mem_cons_of_mem _ hy))]

theorem look_isSome {α : Type} {name : Name} : ∀ {l : List (Name × α)}, (look name l).isSome = true ↔ name ∈ l.map (·.1)
  | [] => by simp [look]
  | (n, x) :: rest => by
    rw [look]
    by_cases h : n = name
    · simp [h]
    · rw [if_neg h, look_isSome (l := rest)]
      simp [Ne.symm h]

theorem look_append {α : Type} {name : Name} : ∀ {l r : List (Name × α)}, (∀ x ∈ l, x.1 ≠ name) → look name (l ++ r) = look name r
  | [], _, _ => rfl
  | (n, x) :: rest, r, h => by
    rw [List.cons_append, look, if_neg (h (n, x) (List.mem_cons_self ..)),
      look_append (fun y hy => h y (List.mem_cons_of_mem _ hy))]

theorem put_fresh {α : Type} {name : Name} {x : α} : ∀ {l : List (Name × α)}, (∀ y ∈ l, y.1 ≠ name) → put name x l = l ++ [(name, x)]
  | [], _ => rfl
  | (n, y) :: rest, h => by
    rw [put, if_neg (h (n, y) (List.mem_cons_self ..)), put_fresh (fun z hz => h z (List.mem_cons_of_mem _ hz))]
    rfl

theorem putAll_fresh {α : Type} {pre : Name} : ∀ {l acc : List (Name × α)}, (l.map (·.1)).Nodup →
    (∀ x ∈ l, ∀ y ∈ acc, y.1 ≠ pre ++ x.1) → putAll pre l acc = acc ++ l.map (fun x => (pre ++ x.1, x.2))
  | [], acc, _, _ => by simp [putAll]
  | (n, x) :: rest, acc, hn, h => by
    rw [List.map_cons, List.nodup_cons] at hn
    rw [putAll, put_fresh (h (n, x) (List.mem_cons_self ..)), putAll_fresh hn.2 ?_]
    · simp
    · intro y hy z hz
      rcases List.mem_append.mp hz with hz | hz
      · exact h y (List.mem_cons_of_mem _ hy) z hz
      · rw [List.mem_singleton] at hz
        subst hz
        intro e
        exact hn.1 (List.mem_map.mpr ⟨y, hy, (List.append_cancel_left e).symm⟩)

/-! ## Specifications -/

def Spec.okNames (sp : Spec) : Prop := sp.names.Nodup ∧ "type".toList ∉ sp.names

/-- The entries for a component of a tuple or a dictionary. -/
def underSpec (name : Name) : Spec → List (Name × Leaf)
  | .leaf l => [(name, l)]
  | .dict items => items.map fun x => (name ++ '_' :: x.1, x.2)

theorem head_under {name : Name} (hc : '_' ∉ name) {sp : Spec} {x : Name × Leaf} (hx : x ∈ underSpec name sp) :
    beforeUnderscore x.1 = name := by
  cases sp with
  | leaf l =>
    rw [underSpec, List.mem_singleton] at hx
    subst hx
    exact before_clean hc
  | dict items =>
    obtain ⟨y, -, rfl⟩ := List.mem_map.mp hx
    exact before_append _ hc

theorem under_nodup {name : Name} {sp : Spec} (h : sp.names.Nodup) : ((underSpec name sp).map (·.1)).Nodup := by
  cases sp with
  | leaf l => simp [underSpec]
  | dict items =>
    rw [underSpec, List.map_map]
    have e : (items.map ((fun x : Name × Leaf => x.1) ∘ fun x => (name ++ '_' :: x.1, x.2))) =
        (items.map (·.1)).map (fun n => name ++ '_' :: n) := by
      rw [List.map_map]; rfl
    rw [e]
    refine List.Pairwise.map _ ?_ h
    intro a b hab e
    exact hab (List.cons.inj (List.append_cancel_left e)).2

theorem putSpec_fresh {name : Name} (hc : '_' ∉ name) {sp : Spec} (hs : sp.okNames) {acc : List (Name × Leaf)}
    (ha : ∀ y ∈ acc, beforeUnderscore y.1 ≠ name) : putSpec name sp acc = .ok (acc ++ underSpec name sp) := by
  cases sp with
  | leaf l =>
    rw [putSpec, put_fresh]
    · rfl
    · intro y hy e
      exact ha y hy (by rw [e, before_clean hc])
  | dict items =>
    have ht : ¬ (look "type".toList items).isSome = true := by
      rw [look_isSome]; exact hs.2
    simp only [putSpec]
    rw [if_neg ht, putAll_fresh hs.1]
    · simp [underSpec, List.append_assoc]
    · intro x hx y hy e
      refine ha y hy ?_
      rw [e, List.append_assoc, List.singleton_append, before_append _ hc]

/-- The entries of a tuple. -/
def tupleForm (inf : Bool) : Nat → List Space → Except Err (List (Name × Leaf))
  | _, [] => .ok []
  | n, s :: ss =>
    match specs inf none none s with
    | .error e => .error e
    | .ok sp =>
      match tupleForm inf (n + 1) ss with
      | .error e => .error e
      | .ok rest => .ok (underSpec (tpl ++ digits n) sp ++ rest)

/-- The entries of a dictionary. -/
def dictForm (inf : Bool) : List (Name × Space) → Except Err (List (Name × Leaf))
  | [] => .ok []
  | (name, s) :: ss =>
    match specs inf none none s with
    | .error e => .error e
    | .ok sp =>
      match dictForm inf ss with
      | .error e => .error e
      | .ok rest => .ok (underSpec name sp ++ rest)

theorem tpl_digits_inj {n m : Nat} (h : tpl ++ digits n = tpl ++ digits m) : n = m :=
  digits_inj (List.append_cancel_left h)

theorem tupleSpecs_eq (inf : Bool) : ∀ (ss : List Space) (n : Nat) (acc : List (Name × Leaf)),
    (∀ s ∈ ss, ∀ sp, specs inf none none s = .ok sp → sp.okNames) →
    (∀ x ∈ acc, ∀ i, n ≤ i → beforeUnderscore x.1 ≠ tpl ++ digits i) →
    tupleSpecs inf n ss acc = (tupleForm inf n ss).map (acc ++ ·)
  | [], n, acc, _, _ => by simp [tupleSpecs, tupleForm, Except.map]
  | s :: ss, n, acc, hs, ha => by
    rw [tupleSpecs, tupleForm]
    cases h : specs inf none none s with
    | error e => rfl
    | ok sp =>
      dsimp only
      rw [putSpec_fresh (tpl_clean n) (hs s (List.mem_cons_self ..) sp h) (fun y hy => ha y hy n (Nat.le_refl n))]
      dsimp only
      rw [tupleSpecs_eq inf ss (n + 1) _ (fun t ht => hs t (List.mem_cons_of_mem _ ht))]
      · cases tupleForm inf (n + 1) ss with
        | error e => rfl
        | ok rest => simp [Except.map]
      · intro x hx i hi
        rcases List.mem_append.mp hx with hx | hx
        · exact ha x hx i (by omega)
        · rw [head_under (tpl_clean n) hx]
          intro e
          have := tpl_digits_inj e
          omega

theorem dictSpecs_eq (inf : Bool) : ∀ (ss : List (Name × Space)) (acc : List (Name × Leaf)),
    (∀ x ∈ ss, '_' ∉ x.1) → (ss.map (·.1)).Nodup →
    (∀ x ∈ ss, ∀ sp, specs inf none none x.2 = .ok sp → sp.okNames) →
    (∀ x ∈ acc, ∀ y ∈ ss, beforeUnderscore x.1 ≠ y.1) →
    dictSpecs inf ss acc = (dictForm inf ss).map (acc ++ ·)
  | [], acc, _, _, _, _ => by simp [dictSpecs, dictForm, Except.map]
  | (name, s) :: ss, acc, hc, hn, hs, ha => by
    rw [List.map_cons, List.nodup_cons] at hn
    have hc1 := hc (name, s) (List.mem_cons_self ..)
    rw [dictSpecs, dictForm]
    cases h : specs inf none none s with
    | error e => rfl
    | ok sp =>
      dsimp only
      rw [putSpec_fresh hc1 (hs _ (List.mem_cons_self ..) sp h) (fun y hy => ha y hy _ (List.mem_cons_self ..))]
      dsimp only
      rw [dictSpecs_eq inf ss _ (fun t ht => hc t (List.mem_cons_of_mem _ ht)) hn.2
        (fun t ht => hs t (List.mem_cons_of_mem _ ht))]
      · cases dictForm inf ss with
        | error e => rfl
        | ok rest => simp [Except.map]
      · intro x hx y hy
        rcases List.mem_append.mp hx with hx | hx
        · exact ha x hx y (List.mem_cons_of_mem _ hy)
        · rw [head_under hc1 hx]
          intro e
          exact hn.1 (List.mem_map.mpr ⟨y, hy, e.symm⟩)

theorem tupleForm_heads (inf : Bool) : ∀ (ss : List Space) (n : Nat) (items : List (Name × Leaf)), tupleForm inf n ss = .ok items →
    ∀ x ∈ items, ∃ i, n ≤ i ∧ beforeUnderscore x.1 = tpl ++ digits i
  | [], n, items, h, x, hx => by
    simp only [tupleForm, Except.ok.injEq] at h; subst h; simp at hx
  | s :: ss, n, items, h, x, hx => by
    rw [tupleForm] at h
    cases hsp : specs inf none none s with
    | error e => rw [hsp] at h; simp at h
    | ok sp =>
      rw [hsp] at h
      dsimp only at h
      cases hr : tupleForm inf (n + 1) ss with
      | error e => rw [hr] at h; simp at h
      | ok rest =>
        rw [hr] at h
        simp only [Except.ok.injEq] at h
        subst h
        rcases List.mem_append.mp hx with hx | hx
        · exact ⟨n, Nat.le_refl n, head_under (tpl_clean n) hx⟩
        · obtain ⟨i, hi, e⟩ := tupleForm_heads inf ss (n + 1) rest hr x hx
          exact ⟨i, by omega, e⟩

theorem nodup_append_heads {l r : List (Name × Leaf)} (hl : (l.map (·.1)).Nodup) (hr : (r.map (·.1)).Nodup)
    (h : ∀ x ∈ l, ∀ y ∈ r, beforeUnderscore x.1 ≠ beforeUnderscore y.1) : ((l ++ r).map (·.1)).Nodup := by
  rw [List.map_append, List.nodup_append]
  refine ⟨hl, hr, ?_⟩
  intro a ha b hb e
  obtain ⟨x, hx, rfl⟩ := List.mem_map.mp ha
  obtain ⟨y, hy, rfl⟩ := List.mem_map.mp hb
  exact h x hx y hy (by rw [e])

theorem tupleForm_nodup (inf : Bool) : ∀ (ss : List Space) (n : Nat) (items : List (Name × Leaf)),
    (∀ s ∈ ss, ∀ sp, specs inf none none s = .ok sp → sp.okNames) →
    tupleForm inf n ss = .ok items → (items.map (·.1)).Nodup
  | [], n, items, _, h => by
    simp only [tupleForm, Except.ok.injEq] at h; subst h; simp
  | s :: ss, n, items, hs, h => by
    rw [tupleForm] at h
    cases hsp : specs inf none none s with
    | error e => rw [hsp] at h; simp at h
    | ok sp =>
      rw [hsp] at h
      dsimp only at h
      cases hr : tupleForm inf (n + 1) ss with
      | error e => rw [hr] at h; simp at h
      | ok rest =>
        rw [hr] at h
        simp only [Except.ok.injEq] at h
        subst h
        refine nodup_append_heads (under_nodup (hs s (List.mem_cons_self ..) sp hsp).1)
          (tupleForm_nodup inf ss (n + 1) rest (fun t ht => hs t (List.mem_cons_of_mem _ ht)) hr) ?_
        intro x hx y hy
        obtain ⟨i, hi, e⟩ := tupleForm_heads inf ss (n + 1) rest hr y hy
        rw [head_under (tpl_clean n) hx, e]
        intro e'
        have := tpl_digits_inj e'
        omega

theorem dictForm_heads (inf : Bool) : ∀ (ss : List (Name × Space)) (items : List (Name × Leaf)), (∀ x ∈ ss, '_' ∉ x.1) →
    dictForm inf ss = .ok items → ∀ x ∈ items, beforeUnderscore x.1 ∈ ss.map (·.1)
  | [], items, _, h, x, hx => by
    simp only [dictForm, Except.ok.injEq] at h; subst h; simp at hx
  | (name, s) :: ss, items, hc, h, x, hx => by
    rw [dictForm] at h
    cases hsp : specs inf none none s with
    | error e => rw [hsp] at h; simp at h
    | ok sp =>
      rw [hsp] at h
      dsimp only at h
      cases hr : dictForm inf ss with
      | error e => rw [hr] at h; simp at h
      | ok rest =>
        rw [hr] at h
        simp only [Except.ok.injEq] at h
        subst h
        rcases List.mem_append.mp hx with hx | hx
        · rw [head_under (hc _ (List.mem_cons_self ..)) hx]
          exact List.mem_cons_self ..
        · exact List.mem_cons_of_mem _
            (dictForm_heads inf ss rest (fun t ht => hc t (List.mem_cons_of_mem _ ht)) hr x hx)

theorem dictForm_nodup (inf : Bool) : ∀ (ss : List (Name × Space)) (items : List (Name × Leaf)),
    (∀ x ∈ ss, '_' ∉ x.1) → (ss.map (·.1)).Nodup →
    (∀ x ∈ ss, ∀ sp, specs inf none none x.2 = .ok sp → sp.okNames) →
    dictForm inf ss = .ok items → (items.map (·.1)).Nodup
  | [], items, _, _, _, h => by
    simp only [dictForm, Except.ok.injEq] at h; subst h; simp
  | (name, s) :: ss, items, hc, hn, hs, h => by
    rw [List.map_cons, List.nodup_cons] at hn
    rw [dictForm] at h
    cases hsp : specs inf none none s with
    | error e => rw [hsp] at h; simp at h
    | ok sp =>
      rw [hsp] at h
      dsimp only at h
      cases hr : dictForm inf ss with
      | error e => rw [hr] at h; simp at h
      | ok rest =>
        rw [hr] at h
        simp only [Except.ok.injEq] at h
        subst h
        have hc' : ∀ x ∈ ss, '_' ∉ x.1 := fun t ht => hc t (List.mem_cons_of_mem _ ht)
        refine nodup_append_heads (under_nodup (hs _ (List.mem_cons_self ..) sp hsp).1)
          (dictForm_nodup inf ss rest hc' hn.2 (fun t ht => hs t (List.mem_cons_of_mem _ ht)) hr) ?_
        intro x hx y hy e
        rw [head_under (hc _ (List.mem_cons_self ..)) hx] at e
        exact hn.1 (e ▸ dictForm_heads inf ss rest hc' hr y hy)

/-- The entries of a `MultiDiscrete` space with different numbers of values. -/
def mdcForm (shape : Name) : Nat → List Nat → List (Name × Leaf)
  | _, [] => []
  | n, x :: xs => (mdc ++ digits n ++ '_' :: shape, { kind := .int, shape := [], numValues := some x }) :: mdcForm shape (n + 1) xs

theorem mdc_name_inj {n m : Nat} {s : Name} (h : mdc ++ digits n ++ '_' :: s = mdc ++ digits m ++ '_' :: s) : n = m := by
  have h1 := before_append s (mdc_clean n)
  rw [h, before_append s (mdc_clean m)] at h1
  exact digits_inj (List.append_cancel_left h1).symm

theorem mdcForm_names {shape : Name} : ∀ (xs : List Nat) (n : Nat), ∀ x ∈ mdcForm shape n xs,
    ∃ i, n ≤ i ∧ i < n + xs.length ∧ x.1 = mdc ++ digits i ++ '_' :: shape
  | [], n, x, hx => by simp [mdcForm] at hx
  | y :: ys, n, x, hx => by
    rw [mdcForm, List.mem_cons] at hx
    rcases hx with rfl | hx
    · exact ⟨n, Nat.le_refl n, by simp, rfl⟩
    · obtain ⟨i, h1, h2, h3⟩ := mdcForm_names ys (n + 1) x hx
      exact ⟨i, by omega, by simp only [List.length_cons]; omega, h3⟩

theorem mdcForm_nodup {shape : Name} : ∀ (xs : List Nat) (n : Nat), ((mdcForm shape n xs).map (·.1)).Nodup
  | [], n => by simp [mdcForm]
  | y :: ys, n => by
    rw [mdcForm, List.map_cons, List.nodup_cons]
    refine ⟨?_, mdcForm_nodup ys (n + 1)⟩
    intro h
    obtain ⟨x, hx, e⟩ := List.mem_map.mp h
    obtain ⟨i, h1, -, h3⟩ := mdcForm_names ys (n + 1) x hx
    have := mdc_name_inj (h3.symm.trans e)
    omega

theorem mdcSpecs_eq {shape : Name} : ∀ (xs : List Nat) (n : Nat) (acc : List (Name × Leaf)),
    (∀ x ∈ acc, ∀ i, n ≤ i → x.1 ≠ mdc ++ digits i ++ '_' :: shape) → mdcSpecs shape n xs acc = acc ++ mdcForm shape n xs
  | [], n, acc, _ => by simp [mdcSpecs, mdcForm]
  | y :: ys, n, acc, h => by
    rw [mdcSpecs, put_fresh (fun x hx => h x hx n (Nat.le_refl n)), mdcSpecs_eq ys (n + 1)]
    · simp [mdcForm]
    · intro x hx i hi
      rcases List.mem_append.mp hx with hx | hx
      · exact h x hx i (by omega)
      · rw [List.mem_singleton] at hx
        subst hx
        intro e
        have := mdc_name_inj e
        omega

end Verif.Gym
