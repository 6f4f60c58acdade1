import Verif.Summary.Model

/-! # Lemmas about the directories of summaries -/

namespace Verif.Summary

theorem insertName_perm (n : String) : ∀ l : List String, (insertName n l).Perm (n :: l)
  | [] => .refl _
  | m :: l => by
    rw [insertName]
    split
    · exact .refl _
    · exact ((insertName_perm n l).cons m).trans (List.Perm.swap n m l)

theorem sortNames_perm : ∀ l : List String, (sortNames l).Perm l
  | [] => .refl _
  | n :: l => by rw [sortNames]; exact (insertName_perm n _).trans ((sortNames_perm l).cons n)

theorem insertName_sorted (n : String) : ∀ l : List String, l.Pairwise (· ≤ ·) → (insertName n l).Pairwise (· ≤ ·)
  | [], _ => List.pairwise_singleton _ _
  | m :: l, h => by
    rw [List.pairwise_cons] at h
    rw [insertName]
    split
    · rename_i hn
      rw [List.pairwise_cons]
      refine ⟨fun k hk => ?_, List.pairwise_cons.mpr h⟩
      rw [List.mem_cons] at hk
      rcases hk with e | hk
      · subst e; exact hn
      · exact String.le_trans hn (h.1 k hk)
    · rename_i hn
      rw [List.pairwise_cons]
      refine ⟨fun k hk => ?_, insertName_sorted n l h.2⟩
      rw [(insertName_perm n l).mem_iff, List.mem_cons] at hk
      rcases hk with e | hk
      · subst e; exact (String.le_total k m).resolve_left hn
      · exact h.1 k hk

theorem sortNames_sorted : ∀ l : List String, (sortNames l).Pairwise (· ≤ ·)
  | [] => List.Pairwise.nil
  | n :: l => by rw [sortNames]; exact insertName_sorted n _ (sortNames_sorted l)

theorem mem_directories (items : List Item) (n : String) : n ∈ directories items ↔ ∃ i ∈ items, i.isDir = true ∧ generic i.name = true ∧ i.name = n := by
  rw [directories, (sortNames_perm _).mem_iff, List.mem_map]
  constructor
  · rintro ⟨i, hi, rfl⟩
    rw [List.mem_filter, Bool.and_eq_true] at hi
    exact ⟨i, hi.1, hi.2.1, hi.2.2, rfl⟩
  · rintro ⟨i, hi, h1, h2, rfl⟩
    exact ⟨i, List.mem_filter.mpr ⟨hi, by rw [h1, h2]; rfl⟩, rfl⟩

theorem directories_nodup (items : List Item) (h : (items.map Item.name).Nodup) : (directories items).Nodup := by
  rw [directories, (sortNames_perm _).nodup_iff]
  exact List.Nodup.sublist (List.filter_sublist.map _) h

theorem find_item (items : List Item) (h : (items.map Item.name).Nodup) (i : Item) (hi : i ∈ items) : items.find? (·.name = i.name) = some i := by
  induction items with
  | nil => cases hi
  | cons j items ih =>
    rw [List.map_cons, List.nodup_cons] at h
    rw [List.mem_cons] at hi
    rw [List.find?_cons]
    by_cases e : j.name = i.name
    · rw [decide_eq_true e]
      rcases hi with hi | hi
      · rw [hi]
      · exact (h.1 (e ▸ List.mem_map.mpr ⟨i, hi, rfl⟩)).elim
    · rw [decide_eq_false e]
      exact ih h.2 (hi.resolve_left fun e' => e (by rw [e']))

/-- All of them can be removed exactly if each has one file. -/
theorem removeDirs_ok : ∀ (ns : List String) (items : List Item), (items.map Item.name).Nodup → ns.Nodup → (∀ n ∈ ns, ∃ i ∈ items, i.name = n) →
    ((removeDirs ns items).2 = none ↔ ∀ i ∈ items, i.name ∈ ns → i.files = 1) ∧
    ((removeDirs ns items).2 = none → (removeDirs ns items).1 = items.filter fun i => i.name ∉ ns)
  | [], items, _, _, _ => ⟨⟨fun _ _ _ h => (by cases h), fun _ => rfl⟩, fun _ => by
    rw [removeDirs, List.filter_eq_self.mpr]
    intro i _; rw [decide_eq_true_iff]; exact List.not_mem_nil⟩
  | n :: ns, items, h, hn, hm => by
    rw [List.nodup_cons] at hn
    obtain ⟨i, hi, rfl⟩ := hm n (List.mem_cons_self ..)
    have hf := find_item items h i hi
    by_cases h1 : i.files = 1
    · have hr : removeDir items i.name = (items.filter (·.name ≠ i.name), none) := by
        rw [removeDir, hf]; dsimp only; rw [if_neg (by omega), if_pos h1]
      have hstep : removeDirs (i.name :: ns) items = removeDirs ns (items.filter (·.name ≠ i.name)) := by rw [removeDirs, hr]
      rw [hstep]
      obtain ⟨ih1, ih2⟩ := removeDirs_ok ns (items.filter (·.name ≠ i.name)) (List.Nodup.sublist (List.filter_sublist.map _) h) hn.2 (by
        intro m hm'
        obtain ⟨j, hj, e⟩ := hm m (List.mem_cons_of_mem _ hm')
        refine ⟨j, List.mem_filter.mpr ⟨hj, ?_⟩, e⟩
        rw [decide_eq_true_iff]
        intro e'
        exact hn.1 (by rw [← e', e]; exact hm'))
      constructor
      · rw [ih1]
        constructor
        · intro hall j hj hjn
          by_cases e : j.name = i.name
          · have := find_item items h j hj
            rw [e, hf] at this
            injection this with this
            rw [← this]; exact h1
          · exact hall j (List.mem_filter.mpr ⟨hj, decide_eq_true e⟩) ((List.mem_cons.mp hjn).resolve_left e)
        · intro hall j hj hjn
          exact hall j (List.mem_filter.mp hj).1 (List.mem_cons_of_mem _ hjn)
      · intro hnone
        rw [ih2 hnone, List.filter_filter]
        congr 1
        funext j
        by_cases e : j.name = i.name
        · simp [e]
        · simp [e]
    · have hr : ∃ items' e, removeDir items i.name = (items', some e) := by
        rw [removeDir, hf]
        dsimp only
        split
        · exact ⟨_, _, rfl⟩
        · exact ⟨_, _, rfl⟩
      obtain ⟨items', e, hr⟩ := hr
      have hstep : removeDirs (i.name :: ns) items = (items', some e) := by rw [removeDirs, hr]
      rw [hstep]
      refine ⟨⟨nofun, fun hall => (h1 (hall i hi (List.mem_cons_self ..))).elim⟩, nofun⟩

/-! ### Times -/

theorem digit_lt (d e : Nat) (hd : d < 10) (he : e < 10) : Char.ofNat (48 + d) < Char.ofNat (48 + e) ↔ d < e := by
  have : ∀ d : Fin 10, ∀ e : Fin 10, Char.ofNat (48 + d.val) < Char.ofNat (48 + e.val) ↔ d.val < e.val := by decide +kernel
  exact this ⟨d, hd⟩ ⟨e, he⟩

theorem digit_eq (d e : Nat) (hd : d < 10) (he : e < 10) : Char.ofNat (48 + d) = Char.ofNat (48 + e) ↔ d = e := by
  have : ∀ d : Fin 10, ∀ e : Fin 10, Char.ofNat (48 + d.val) = Char.ofNat (48 + e.val) ↔ d.val = e.val := by decide +kernel
  exact this ⟨d, hd⟩ ⟨e, he⟩

/-- Numbers with the same number of digits are compared like their digits. -/
theorem pad_lt : ∀ (w n n' : Nat) (l l' : List Char), n < 10 ^ w → n' < 10 ^ w → (pad w n ++ l < pad w n' ++ l' ↔ n < n' ∨ (n = n' ∧ l < l'))
  | 0, n, n', l, l', h, h' => by
    rw [Nat.pow_zero, Nat.lt_one_iff] at h h'
    subst h; subst h'
    simp [pad]
  | w + 1, n, n', l, l', h, h' => by
    rw [Nat.pow_succ] at h h'
    rw [pad, pad, List.append_assoc, List.append_assoc, pad_lt w (n / 10) (n' / 10) _ _ (by omega) (by omega)]
    show _ ∨ (_ ∧ (Char.ofNat (48 + n % 10) :: l < Char.ofNat (48 + n' % 10) :: l')) ↔ _
    rw [List.cons_lt_cons_iff, digit_lt _ _ (by omega) (by omega), digit_eq _ _ (by omega) (by omega)]
    constructor
    · rintro (h1 | ⟨h1, h2 | ⟨h2, h3⟩⟩)
      · exact Or.inl (by omega)
      · exact Or.inl (by omega)
      · exact Or.inr ⟨by omega, h3⟩
    · rintro (h1 | ⟨h1, h3⟩)
      · by_cases h2 : n / 10 < n' / 10
        · exact Or.inl h2
        · exact Or.inr ⟨by omega, Or.inl (by omega)⟩
      · subst h1
        exact Or.inr ⟨rfl, Or.inr ⟨rfl, h3⟩⟩

theorem prefix_lt (p l l' : List Char) : p ++ l < p ++ l' ↔ l < l' := by
  induction p with
  | nil => rfl
  | cons c p ih =>
    rw [List.cons_append, List.cons_append, List.cons_lt_cons_iff, ih]
    exact ⟨fun h => h.elim (fun h => (Char.lt_irrefl c h).elim) And.right, fun h => Or.inr ⟨rfl, h⟩⟩

theorem hyphen_lt (l l' : List Char) : '-' :: l < '-' :: l' ↔ l < l' := prefix_lt ['-'] l l'

theorem pad_lt_end (w n n' : Nat) (h : n < 10 ^ w) (h' : n' < 10 ^ w) : pad w n < pad w n' ↔ n < n' := by
  have := pad_lt w n n' [] [] h h'
  rw [List.append_nil, List.append_nil] at this
  rw [this]
  exact ⟨fun h => h.elim id fun h => (List.lt_irrefl [] h.2).elim, Or.inl⟩

theorem format_toList (t : Time) : t.format.toList =
    "summary-".toList ++ (pad 4 t.year ++ (pad 2 t.month ++ (pad 2 t.day ++ ('-' :: (pad 2 t.hour ++ (pad 2 t.minute ++ pad 2 t.second)))))) :=
  String.toList_ofList

end Verif.Summary
