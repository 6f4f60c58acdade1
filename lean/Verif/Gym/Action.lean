import Verif.Gym.Leaf

/-! # Lemmas about `unflatten_action` -/

namespace Verif.Gym

/-! ## Prefixes -/

theorem prefix_clean : ∀ {p k m : Name}, '_' ∉ p → p.isPrefixOf (k ++ '_' :: m) = true → p.isPrefixOf k = true
  | [], k, m, _, _ => by simp
  | c :: p, [], m, h, hp => by
    simp only [List.nil_append, List.isPrefixOf, Bool.and_eq_true, beq_iff_eq] at hp
    rw [List.mem_cons, not_or] at h
    exact absurd hp.1.symm h.1
  | c :: p, d :: k, m, h, hp => by
    simp only [List.cons_append, List.isPrefixOf, Bool.and_eq_true] at hp ⊢
    rw [List.mem_cons, not_or] at h
    exact ⟨hp.1, prefix_clean h.2 hp.2⟩

/-- A prefix which ends with an underscore fixes the first part of a name. -/
theorem prefix_under : ∀ {p k m : Name}, '_' ∉ p → '_' ∉ k → (p ++ ['_']).isPrefixOf (k ++ '_' :: m) = true → p = k
  | [], [], m, _, _, _ => rfl
  | [], d :: k, m, _, hk, h => by
    simp only [List.nil_append, List.cons_append, List.isPrefixOf, Bool.and_eq_true, beq_iff_eq] at h
    rw [List.mem_cons, not_or] at hk
    exact absurd h.1 hk.1
  | c :: p, [], m, hp, _, h => by
    simp only [List.nil_append, List.cons_append, List.isPrefixOf, Bool.and_eq_true, beq_iff_eq] at h
    rw [List.mem_cons, not_or] at hp
    exact absurd h.1.symm hp.1
  | c :: p, d :: k, m, hp, hk, h => by
    simp only [List.cons_append, List.isPrefixOf, Bool.and_eq_true, beq_iff_eq] at h
    rw [List.mem_cons, not_or] at hp hk
    rw [h.1, prefix_under hp.2 hk.2 h.2]

theorem prefix_self_append (p r : Name) : p.isPrefixOf (p ++ r) = true := by
  rw [List.isPrefixOf_iff_prefix]
  exact List.prefix_append p r

/-- A prefix with an underscore is none of a name without one. -/
theorem prefix_under_clean {p k : Name} (hk : '_' ∉ k) : (p ++ ['_']).isPrefixOf k = false := by
  rw [Bool.eq_false_iff]
  intro h
  rw [List.isPrefixOf_iff_prefix] at h
  obtain ⟨r, hr⟩ := h
  apply hk
  rw [← hr]
  simp

theorem isPrefix_append_left {p a b : Name} : (p ++ a).isPrefixOf (p ++ b) = a.isPrefixOf b := by
  rw [Bool.eq_iff_iff, List.isPrefixOf_iff_prefix, List.isPrefixOf_iff_prefix, List.prefix_append_right_inj]

/-! ## Tuples -/

/-- The entries of a tuple of arrays. -/
def tplItems : Nat → List Arr → List (Name × Arr)
  | _, [] => []
  | n, a :: as => (tpl ++ digits n, a) :: tplItems (n + 1) as

theorem tplItems_names : ∀ (as : List Arr) (n : Nat), ∀ x ∈ tplItems n as, ∃ i, x.1 = tpl ++ digits i
  | [], _, x, hx => by simp [tplItems] at hx
  | a :: as, n, x, hx => by
    rw [tplItems, List.mem_cons] at hx
    rcases hx with rfl | hx
    · exact ⟨n, rfl⟩
    · exact tplItems_names as (n + 1) x hx

theorem tplItems_look : ∀ (as : List Arr) (n k : Nat), look (tpl ++ digits (n + k)) (tplItems n as) = as[k]?
  | [], n, k => by simp [tplItems, look]
  | a :: as, n, 0 => by simp [tplItems, look]
  | a :: as, n, k + 1 => by
    rw [tplItems, look, if_neg, show n + (k + 1) = (n + 1) + k by omega, tplItems_look as (n + 1) k]
    · simp
    · intro e
      have := tpl_digits_inj e
      omega

theorem tplItems_length : ∀ (as : List Arr) (n : Nat), (tplItems n as).length = as.length
  | [], _ => rfl
  | a :: as, n => by simp [tplItems, tplItems_length as]

theorem collect_tpl {as : List Arr} (hf : ∀ a ∈ as, a.elems.all Num.isFin = true) : ∀ (fuel n : Nat), as.length < fuel + n →
    collect tpl (tplItems 0 as) fuel n = if n ≤ as.length ∧ 0 < fuel then .ok (as.drop n) else collect tpl (tplItems 0 as) fuel n
  | 0, n, h => by simp
  | fuel + 1, n, h => by
    by_cases hn : n ≤ as.length
    · rw [if_pos ⟨hn, by omega⟩, collect]
      dsimp only
      have ha : (tplItems 0 as).any ((tpl ++ digits n ++ ['_']).isPrefixOf ·.1) = false := by
        rw [List.any_eq_false]
        intro x hx
        obtain ⟨i, e⟩ := tplItems_names as 0 x hx
        rw [e, prefix_under_clean (tpl_clean i)]
        simp
      rw [ha, if_neg (by simp)]
      have hl := tplItems_look as 0 n
      rw [Nat.zero_add] at hl
      rw [hl]
      by_cases hlt : n < as.length
      · rw [List.getElem?_eq_getElem hlt]
        dsimp only
        rw [unflattenArr, if_pos (hf _ (List.getElem_mem hlt))]
        dsimp only
        rw [collect_tpl hf fuel (n + 1) (by omega), if_pos ⟨by omega, by omega⟩]
        dsimp only
        rw [List.drop_eq_getElem_cons hlt]
      · rw [List.getElem?_eq_none (by omega), List.drop_eq_nil_of_le (by omega)]
    · rw [if_neg (fun h => hn h.1)]

/-! ## Arrays of numbers with different numbers of values -/

theorem numbered_names {shape : Name} : ∀ (xs : List Num) (n : Nat), ∀ x ∈ numbered shape n xs,
    ∃ i, n ≤ i ∧ i < n + xs.length ∧ x.1 = mdc ++ digits i ++ '_' :: shape
  | [], n, x, hx => by simp [numbered] at hx
  | y :: ys, n, x, hx => by
    rw [numbered, List.mem_cons] at hx
    rcases hx with rfl | hx
    · exact ⟨n, Nat.le_refl n, by simp, rfl⟩
    · obtain ⟨i, h1, h2, h3⟩ := numbered_names ys (n + 1) x hx
      exact ⟨i, by omega, by simp only [List.length_cons]; omega, h3⟩

theorem numbered_length {shape : Name} : ∀ (xs : List Num) (n : Nat), (numbered shape n xs).length = xs.length
  | [], _ => rfl
  | a :: as, n => by simp [numbered, numbered_length as]

theorem digit_prefix {shape : Name} {n i : Nat} (hn : n < 10) (hi : i < 10)
    (h : (mdc ++ digits n).isPrefixOf (mdc ++ digits i ++ '_' :: shape) = true) : n = i := by
  rw [List.append_assoc, isPrefix_append_left] at h
  have e1 : digits n = [n.digitChar] := Nat.toDigits_of_lt_base hn
  have e2 : digits i = [i.digitChar] := Nat.toDigits_of_lt_base hi
  have h' : [n.digitChar] = [i.digitChar] := by
    rw [e1, e2] at h
    simp only [List.cons_append, List.nil_append, List.isPrefixOf, Bool.and_true, beq_iff_eq] at h
    rw [h]
  rw [← e1, ← e2] at h'
  exact digits_inj h'

theorem numbered_filter {shape : Name} : ∀ (xs : List Num) (n k : Nat), n + xs.length ≤ 10 → k < xs.length →
    (numbered shape n xs).filter ((mdc ++ digits (n + k)).isPrefixOf ·.1) =
      (xs[k]?.map fun x => (mdc ++ digits (n + k) ++ '_' :: shape, (⟨[], [x]⟩ : Arr))).toList
  | [], n, k, _, hk => by simp at hk
  | x :: xs, n, 0, h, _ => by
    have hrest : (numbered shape (n + 1) xs).filter ((mdc ++ digits n).isPrefixOf ·.1) = [] := by
      rw [List.filter_eq_nil_iff]
      intro y hy hp
      obtain ⟨i, h1, h2, h3⟩ := numbered_names xs (n + 1) y hy
      rw [h3] at hp
      simp only [List.length_cons] at h
      have := digit_prefix (by omega) (by omega) hp
      omega
    rw [numbered, Nat.add_zero, List.filter_cons, if_pos (prefix_self_append (mdc ++ digits n) ('_' :: shape)), hrest]
    simp
  | x :: xs, n, k + 1, h, hk => by
    simp only [List.length_cons] at h hk
    rw [numbered, List.filter_cons_of_neg, show n + (k + 1) = (n + 1) + k by omega,
      numbered_filter xs (n + 1) k (by omega) (by omega)]
    · simp
    · intro hp
      have := digit_prefix (by omega) (by omega) hp
      omega

theorem numbered_any {shape : Name} (xs : List Num) (k : Nat) :
    (numbered shape 0 xs).any ((mdc ++ digits k ++ ['_']).isPrefixOf ·.1) = decide (k < xs.length) := by
  have key : ∀ (xs : List Num) (n : Nat), k < n + xs.length → n ≤ k →
      (numbered shape n xs).any ((mdc ++ digits k ++ ['_']).isPrefixOf ·.1) = true := by
    intro xs
    induction xs with
    | nil => intro n h1 h2; simp only [List.length_nil] at h1; omega
    | cons x xs ih =>
      intro n h1 h2
      rw [numbered, List.any_cons, Bool.or_eq_true]
      by_cases e : n = k
      · left
        subst e
        have := prefix_self_append (mdc ++ digits n ++ ['_']) shape
        simpa [List.append_assoc] using this
      · right
        simp only [List.length_cons] at h1
        exact ih (n + 1) (by omega) (by omega)
  by_cases hk : k < xs.length
  · rw [key xs 0 (by omega) (by omega)]
    simp [hk]
  · have : decide (k < xs.length) = false := by simpa using hk
    rw [this, List.any_eq_false]
    intro y hy hp
    obtain ⟨i, h1, h2, h3⟩ := numbered_names xs 0 y hy
    rw [h3] at hp
    have := digits_inj (List.append_cancel_left (prefix_under (mdc_clean k) (mdc_clean i) hp))
    omega

theorem collect_mdc {shape : Name} {xs : List Num} (hl : xs.length ≤ 10) (hf : xs.all Num.isFin = true) : ∀ (fuel n : Nat),
    xs.length < fuel + n → n ≤ xs.length →
    collect mdc (numbered shape 0 xs) fuel n = .ok ((xs.drop n).map fun x => ⟨[], [x]⟩)
  | 0, n, h, hn => by omega
  | fuel + 1, n, h, hn => by
    rw [collect]
    dsimp only
    rw [numbered_any]
    by_cases hlt : n < xs.length
    · rw [if_pos (by simpa using hlt)]
      have hfil := numbered_filter (shape := shape) xs 0 n (by omega) hlt
      rw [Nat.zero_add] at hfil
      rw [hfil, List.getElem?_eq_getElem hlt]
      dsimp only [Option.map, Option.toList]
      have hx := all_fin.mp hf _ (List.getElem_mem hlt)
      rw [unflattenArr, if_pos (by simpa using hx)]
      dsimp only
      rw [collect_mdc hl hf fuel (n + 1) (by omega) (by omega)]
      dsimp only
      rw [List.drop_eq_getElem_cons hlt, List.map_cons]
    · rw [if_neg (by simpa using hlt), look_none, List.drop_eq_nil_of_le (by omega)]
      · rfl
      · intro x hx e
        obtain ⟨i, -, -, h3⟩ := numbered_names xs 0 x hx
        rw [h3] at e
        exact mdc_clean n (e ▸ by simp)

/-! ## Shapes in names -/

theorem split_join : ∀ (l : List Name), l ≠ [] → (∀ s ∈ l, '_' ∉ s) → splitUnderscore (['_'].intercalate l) = l := by
  have single : ∀ (s : Name), '_' ∉ s → splitUnderscore s = [s] := by
    intro s
    induction s with
    | nil => intro _; rfl
    | cons c s ih =>
      intro h
      rw [List.mem_cons, not_or] at h
      rw [splitUnderscore, if_neg (fun e => h.1 e.symm), ih h.2]
  have step : ∀ (s r : Name), '_' ∉ s → splitUnderscore (s ++ '_' :: r) = s :: splitUnderscore r := by
    intro s
    induction s with
    | nil => intro r _; simp [splitUnderscore]
    | cons c s ih =>
      intro r h
      rw [List.mem_cons, not_or] at h
      rw [List.cons_append, splitUnderscore, if_neg (fun e => h.1 e.symm), ih r h.2]
  intro l
  induction l with
  | nil => intro h; exact absurd rfl h
  | cons s l ih =>
    intro _ hc
    cases l with
    | nil =>
      have : ['_'].intercalate [s] = s := by simp [List.intercalate]
      rw [this, single s (hc s (List.mem_cons_self ..))]
    | cons t l =>
      have : ['_'].intercalate (s :: t :: l) = s ++ '_' :: ['_'].intercalate (t :: l) := by
        simp [List.intercalate, List.intersperse]
      rw [this, step s _ (hc s (List.mem_cons_self ..)), ih (by simp) (fun x hx => hc x (List.mem_cons_of_mem _ hx))]

theorem parseNat_digits (n : Nat) : parseNat (digits n) = some n := by
  rw [parseNat, if_pos]
  · exact congrArg some Nat.ofDigitChars_ten_toDigits
  · refine ⟨Nat.toDigits_ne_nil, ?_⟩
    rw [List.all_eq_true]
    intro c hc
    exact Nat.isDigit_of_mem_toDigits (by decide) (by decide) hc

theorem parseAll_digits : ∀ (ns : List Nat), parseAll (ns.map digits) = some ns
  | [] => rfl
  | n :: ns => by rw [List.map_cons, parseAll, parseNat_digits, parseAll_digits ns]

theorem parseShape_mdc {shape : List Nat} (hs : shape ≠ []) (n : Nat) :
    parseShape (mdc ++ digits n ++ '_' :: shapeName shape) = some shape := by
  rw [parseShape, after_append _ (mdc_clean n)]
  dsimp only
  rw [shapeName, split_join _ (by simpa using hs), parseAll_digits]
  intro s h
  obtain ⟨m, -, rfl⟩ := List.mem_map.mp h
  exact digits_clean m

end Verif.Gym
