import Verif.Convert.Spec

/-! # Lemmas on indices, broadcasting and conversion -/

namespace Verif.Convert

theorem unit_bind {ε β : Type} (x : Except ε Unit) (f : Except ε β) (b : β) :
    (x >>= fun _ => f) = .ok b ↔ x = .ok () ∧ f = .ok b := by
  cases x <;> simp [bind, Except.bind]

theorem bind_ok {ε α β : Type} (x : Except ε α) (f : α → Except ε β) (b : β) :
    (x >>= f) = .ok b ↔ ∃ a, x = .ok a ∧ f a = .ok b := by
  cases x <;> simp [bind, Except.bind]

theorem mem_indices_nil (i : List Nat) : i ∈ indices [] ↔ i = [] := by simp [indices]

theorem mem_indices_cons (n : Nat) (r i : List Nat) : i ∈ indices (n :: r) ↔ ∃ k t, i = k :: t ∧ k < n ∧ t ∈ indices r := by
  simp only [indices, List.mem_flatMap, List.mem_map, List.mem_range]
  constructor
  · rintro ⟨k, hk, t, ht, rfl⟩
    exact ⟨k, t, rfl, hk, ht⟩
  · rintro ⟨k, t, rfl, hk, ht⟩
    exact ⟨k, hk, t, ht, rfl⟩

theorem indices_length (s i : List Nat) (h : i ∈ indices s) : i.length = s.length := by
  induction s generalizing i with
  | nil => rw [(mem_indices_nil i).mp h]
  | cons n r ih =>
    obtain ⟨k, t, rfl, _, ht⟩ := (mem_indices_cons n r i).mp h
    simp [ih t ht]

theorem zip_index (s i : List Nat) (h : i ∈ indices s) : List.zipWith (fun d k => if d = 1 then 0 else k) s i = i := by
  induction s generalizing i with
  | nil => rw [(mem_indices_nil i).mp h]; rfl
  | cons n r ih =>
    obtain ⟨k, t, rfl, hk, ht⟩ := (mem_indices_cons n r i).mp h
    rw [List.zipWith_cons_cons, ih t ht]
    congr 1
    split
    · omega
    · rfl

theorem bindex_self (s i : List Nat) (h : i ∈ indices s) : bindex s i = i := by
  unfold bindex
  rw [indices_length s i h, Nat.sub_self, List.drop_zero]
  exact zip_index s i h

theorem bindex_tail (n : Nat) (s i : List Nat) (h : i ∈ indices (n :: s)) : bindex s i = i.drop 1 := by
  obtain ⟨k, t, rfl, hk, ht⟩ := (mem_indices_cons n s i).mp h
  unfold bindex
  have : (k :: t).length - s.length = 1 := by rw [List.length_cons, indices_length s t ht]; omega
  rw [this]
  exact zip_index s t ht

theorem bshapeRev_self (s t : List Nat) : bshapeRev (s ++ t) s = some (s ++ t) := by
  induction s with
  | nil => cases t <;> rfl
  | cons d r ih =>
    rw [List.cons_append, bshapeRev, if_pos (.inl rfl), ih]
    rfl

theorem bshape_suffix (t s : List Nat) : bshape (t ++ s) s = some (t ++ s) := by
  unfold bshape
  rw [List.reverse_append, bshapeRev_self]
  simp

theorem map_ofNat_inj {s t : List Nat} (h : s.map Int.ofNat = t.map Int.ofNat) : s = t := by
  induction s generalizing t with
  | nil => cases t with
    | nil => rfl
    | cons _ _ => simp at h
  | cons a r ih => cases t with
    | nil => simp at h
    | cons b r' =>
      simp only [List.map_cons, List.cons.injEq] at h
      rw [ih h.2, Int.ofNat.inj h.1]

/-- Comparison with a bound of the same shape, or with one row of a batch. -/
theorem anyPair_full (p : Elem → Rat → Bool) (x : Arr Elem) (b : Arr Rat) (batched : Bool)
    (h : if batched = true then ∃ n, x.shape = n :: b.shape else x.shape = b.shape) :
    anyPair p x b = .ok ((indices x.shape).any (fun i => p (x.get i) (b.get (within batched i)))) := by
  have hb : ∃ t, x.shape = t ++ b.shape := by
    cases batched with
    | true => obtain ⟨n, hn⟩ := h; exact ⟨[n], hn⟩
    | false => exact ⟨[], h⟩
  obtain ⟨t, ht⟩ := hb
  have hbs : bshape x.shape b.shape = some x.shape := by rw [ht, bshape_suffix]
  unfold anyPair
  rw [hbs]
  dsimp only
  congr 1
  rw [Bool.eq_iff_iff, List.any_eq_true, List.any_eq_true]
  have key : ∀ i ∈ indices x.shape, bindex x.shape i = i ∧ bindex b.shape i = within batched i := by
    intro i hi
    refine ⟨bindex_self _ i hi, ?_⟩
    cases batched with
    | true =>
      obtain ⟨n, hn⟩ := h
      rw [hn] at hi
      exact bindex_tail n _ i hi
    | false =>
      have h : x.shape = b.shape := h
      rw [h] at hi
      exact bindex_self _ i hi
  constructor
  · rintro ⟨i, hi, hp⟩
    rw [(key i hi).1, (key i hi).2] at hp
    exact ⟨i, hi, hp⟩
  · rintro ⟨i, hi, hp⟩
    refine ⟨i, hi, ?_⟩
    rw [(key i hi).1, (key i hi).2]
    exact hp

theorem within_take (s i : List Nat) (batched : Bool) (n : Nat) (h : if batched = true then i ∈ indices (n :: s) else i ∈ indices s) :
    (within batched i).take s.length = within batched i := by
  cases batched with
  | true =>
    obtain ⟨k, t, rfl, _, ht⟩ := (mem_indices_cons n s i).mp h
    exact List.take_of_length_le (Nat.le_of_eq (indices_length s t ht))
  | false => exact List.take_of_length_le (Nat.le_of_eq (indices_length s i h))

theorem bshapeRev_ones (s t : List Nat) (hl : t.length ≤ s.length) (h : ∀ d ∈ t, d = 1) : bshapeRev s t = some s := by
  induction t generalizing s with
  | nil => cases s <;> rfl
  | cons e r ih =>
    cases s with
    | nil => simp at hl
    | cons d s =>
      rw [bshapeRev, if_pos (.inr (h e (List.mem_cons_self ..))), ih s (by simpa using hl) (fun d hd => h d (List.mem_cons_of_mem _ hd))]
      rfl

theorem bshape_ones (s t : List Nat) (hl : t.length ≤ s.length) (h : ∀ d ∈ t, d = 1) : bshape s t = some s := by
  unfold bshape
  rw [bshapeRev_ones s.reverse t.reverse (by simpa using hl) (fun d hd => h d (List.mem_reverse.mp hd))]
  simp

theorem zip_ones (t l : List Nat) (hl : t.length ≤ l.length) (h : ∀ d ∈ t, d = 1) :
    List.zipWith (fun d k => if d = 1 then 0 else k) t l = t.map (fun _ => 0) := by
  induction t generalizing l with
  | nil => rfl
  | cons e r ih =>
    cases l with
    | nil => simp at hl
    | cons k l =>
      rw [List.zipWith_cons_cons, if_pos (h e (List.mem_cons_self ..)), ih l (by simpa using hl) (fun d hd => h d (List.mem_cons_of_mem _ hd))]
      rfl

theorem bindex_ones (t i : List Nat) (hl : t.length ≤ i.length) (h : ∀ d ∈ t, d = 1) : bindex t i = t.map (fun _ => 0) :=
  zip_ones t _ (by rw [List.length_drop]; omega) h

theorem take_ones (s t j : List Nat) (hp : t <+: s) (h : ∀ d ∈ t, d = 1) (hj : j ∈ indices s) : j.take t.length = t.map (fun _ => 0) := by
  induction t generalizing s j with
  | nil => rfl
  | cons e r ih =>
    obtain ⟨u, rfl⟩ := hp
    rw [List.cons_append] at hj
    obtain ⟨k, l, rfl, hk, hl⟩ := (mem_indices_cons ..).mp hj
    have he := h e (List.mem_cons_self ..)
    rw [List.length_cons, List.take_succ_cons, List.map_cons, ih (r ++ u) l ⟨u, rfl⟩ (fun d hd => h d (List.mem_cons_of_mem _ hd)) hl]
    congr 1
    omega

theorem prefix_ofNat {t s : List Nat} (h : t.map Int.ofNat <+: s.map Int.ofNat) : t <+: s := by
  induction t generalizing s with
  | nil => exact List.nil_prefix
  | cons a r ih =>
    cases s with
    | nil => obtain ⟨u, hu⟩ := h; simp at hu
    | cons b s =>
      rw [List.map_cons, List.map_cons, List.cons_prefix_cons] at h
      rw [List.cons_prefix_cons]
      exact ⟨Int.ofNat.inj h.1, ih h.2⟩

theorem within_mem (s i : List Nat) (shape : List Nat) (batched : Bool)
    (h : if batched = true then ∃ n, shape = n :: s else shape = s) (hi : i ∈ indices shape) : within batched i ∈ indices s := by
  cases batched with
  | true =>
    obtain ⟨n, rfl⟩ := h
    obtain ⟨k, t, rfl, _, ht⟩ := (mem_indices_cons ..).mp hi
    exact ht
  | false =>
    have h : shape = s := h
    exact h ▸ hi

/-- Comparison with one bound for leading dimensions of size one. -/
theorem anyPair_ones (p : Elem → Rat → Bool) (x : Arr Elem) (b : Arr Rat) (s : List Nat) (batched : Bool)
    (h : if batched = true then ∃ n, x.shape = n :: s else x.shape = s) (h1 : ∀ d ∈ b.shape, d = 1) (h2 : b.shape <+: s) :
    anyPair p x b = .ok ((indices x.shape).any (fun i => p (x.get i) (boundAt (.many b) (within batched i)))) := by
  have hl : b.shape.length ≤ x.shape.length := by
    have := h2.length_le
    cases batched with
    | true =>
      obtain ⟨n, hn⟩ := h
      rw [hn, List.length_cons]
      omega
    | false =>
      have h : x.shape = s := h
      rw [h]
      exact this
  unfold anyPair
  rw [bshape_ones _ _ hl h1]
  dsimp only
  congr 1
  have key : ∀ i ∈ indices x.shape, bindex x.shape i = i ∧ b.get (bindex b.shape i) = boundAt (.many b) (within batched i) := by
    intro i hi
    refine ⟨bindex_self _ i hi, ?_⟩
    show _ = b.get _
    rw [take_ones s b.shape (within batched i) h2 h1 (within_mem s i x.shape batched h hi),
      bindex_ones b.shape i (by rw [indices_length _ _ hi]; exact hl) h1]
  rw [Bool.eq_iff_iff, List.any_eq_true, List.any_eq_true]
  constructor <;> rintro ⟨i, hi, hp⟩ <;> refine ⟨i, hi, ?_⟩
  · rw [(key i hi).1, (key i hi).2] at hp; exact hp
  · rw [(key i hi).1, (key i hi).2]; exact hp

/-- Comparison with a bound, entry by entry. -/
theorem anyBound_full (p : Elem → Rat → Bool) (s : Spec) (x : Arr Elem) (b : Bound) (batched : Bool)
    (hs : ShapeFits s batched x.shape) (hb : ∀ a, b = .many a → a.shape.map Int.ofNat = s.shape ∨ (∀ d ∈ a.shape, d = 1) ∧ a.shape.map Int.ofNat <+: s.shape) :
    anyBound p x b = .ok ((indices x.shape).any (fun i => p (x.get i) (boundAt b (within batched i)))) := by
  cases b with
  | one q => rfl
  | many a =>
    rcases hb a rfl with ha | ⟨ha1, ha2⟩
    rotate_left
    · have hsh : ∃ s', s'.map Int.ofNat = s.shape ∧ if batched = true then ∃ n, x.shape = n :: s' else x.shape = s' := by
        unfold ShapeFits at hs
        cases batched with
        | true =>
          obtain ⟨n, rest, h1, h2⟩ := hs
          exact ⟨rest, h2, n, h1⟩
        | false => exact ⟨x.shape, hs, rfl⟩
      obtain ⟨s', e, hsh⟩ := hsh
      rw [← e] at ha2
      exact anyPair_ones p x a s' batched hsh ha1 (prefix_ofNat ha2)
    have hsh : if batched = true then ∃ n, x.shape = n :: a.shape else x.shape = a.shape := by
      unfold ShapeFits at hs
      cases batched with
      | true =>
        obtain ⟨n, rest, h1, h2⟩ := hs
        refine ⟨n, ?_⟩
        rw [h1, map_ofNat_inj (h2.trans ha.symm)]
      | false => exact map_ofNat_inj (Eq.trans hs ha.symm)
    rw [show anyBound p x (.many a) = anyPair p x a from rfl, anyPair_full p x a batched hsh]
    congr 1
    rw [Bool.eq_iff_iff, List.any_eq_true, List.any_eq_true]
    have key : ∀ i ∈ indices x.shape, boundAt (.many a) (within batched i) = a.get (within batched i) := by
      intro i hi
      show a.get _ = _
      cases batched with
      | true =>
        obtain ⟨n, hn⟩ := hsh
        rw [hn] at hi
        rw [within_take a.shape i true n hi]
      | false =>
        have hsh : x.shape = a.shape := hsh
        rw [hsh] at hi
        rw [within_take a.shape i false 0 hi]
    constructor <;> rintro ⟨i, hi, hp⟩ <;> refine ⟨i, hi, ?_⟩
    · rw [key i hi]; exact hp
    · rw [key i hi] at hp; exact hp

theorem checkMin_ok (x : Arr Elem) (b : Option Bound) :
    checkMin x b = .ok () ↔ ∀ b', b = some b' → anyBound below x b' = .ok false := by
  cases b with
  | none => simp [checkMin]
  | some b =>
    unfold checkMin
    rw [bind_ok]
    constructor
    · rintro ⟨a, h1, h2⟩ b' e
      cases e
      cases a with
      | true => cases h2
      | false => exact h1
    · intro h
      exact ⟨false, h b rfl, rfl⟩

theorem checkMax_ok (x : Arr Elem) (b : Option Bound) :
    checkMax x b = .ok () ↔ ∀ b', b = some b' → anyBound above x b' = .ok false := by
  cases b with
  | none => simp [checkMax]
  | some b =>
    unfold checkMax
    rw [bind_ok]
    constructor
    · rintro ⟨a, h1, h2⟩ b' e
      cases e
      cases a with
      | true => cases h2
      | false => exact h1
    · intro h
      exact ⟨false, h b rfl, rfl⟩

theorem finite_iff (x : Arr Elem) : (indices x.shape).any (fun i => notFinite (x.get i)) = false ↔
    ∀ i ∈ indices x.shape, ∃ q, x.get i = .num q := by
  rw [List.any_eq_false]
  refine forall_congr' fun i => forall_congr' fun _ => ?_
  cases x.get i <;> simp [notFinite]

theorem below_false (x : Arr Elem) (hf : ∀ i ∈ indices x.shape, ∃ q, x.get i = .num q) (f : List Nat → Rat) :
    (indices x.shape).any (fun i => below (x.get i) (f i)) = false ↔ ∀ i ∈ indices x.shape, ∀ q, x.get i = .num q → f i ≤ q := by
  rw [List.any_eq_false]
  refine forall_congr' fun i => forall_congr' fun hi => ?_
  obtain ⟨q, hq⟩ := hf i hi
  rw [hq]
  simp [below, Rat.not_lt]

theorem above_false (x : Arr Elem) (hf : ∀ i ∈ indices x.shape, ∃ q, x.get i = .num q) (f : List Nat → Rat) :
    (indices x.shape).any (fun i => above (x.get i) (f i)) = false ↔ ∀ i ∈ indices x.shape, ∀ q, x.get i = .num q → q ≤ f i := by
  rw [List.any_eq_false]
  refine forall_congr' fun i => forall_congr' fun hi => ?_
  obtain ⟨q, hq⟩ := hf i hi
  rw [hq]
  simp [above, Rat.not_lt]

theorem notBelow_false (x : Arr Elem) (hf : ∀ i ∈ indices x.shape, ∃ q, x.get i = .num q) (n : Rat) :
    (indices x.shape).any (fun i => !below (x.get i) n) = false ↔ ∀ i ∈ indices x.shape, ∀ q, x.get i = .num q → q < n := by
  rw [List.any_eq_false]
  refine forall_congr' fun i => forall_congr' fun hi => ?_
  obtain ⟨q, hq⟩ := hf i hi
  rw [hq]
  simp [below]

theorem shapeFits_iff (s : Spec) (batched : Bool) (shape : List Nat) (hb : batched = true → shape ≠ []) :
    (shape.drop (if batched then 1 else 0)).map Int.ofNat = s.shape ↔ ShapeFits s batched shape := by
  unfold ShapeFits
  cases batched with
  | false => rfl
  | true =>
    cases shape with
    | nil => exact (hb rfl rfl).elim
    | cons n r =>
      constructor
      · intro h; exact ⟨n, r, rfl, h⟩
      · rintro ⟨n', r', e, h⟩
        cases e
        exact h

theorem range_bounds (s : Spec) (batched : Bool) (x : Arr Elem) (hs : ShapeFits s batched x.shape) (hf : FullBounds s)
    (hfin : ∀ i ∈ indices x.shape, ∃ q, x.get i = .num q) :
    (checkMin x s.min = .ok () ∧ checkMax x s.max = .ok ()) ↔ ∀ i ∈ indices x.shape, ∀ q, x.get i = .num q →
      (∀ b, s.min = some b → boundAt b (within batched i) ≤ q) ∧ (∀ b, s.max = some b → q ≤ boundAt b (within batched i)) := by
  rw [checkMin_ok, checkMax_ok]
  have h1 : ∀ b, s.min = some b → (anyBound below x b = .ok false ↔
      ∀ i ∈ indices x.shape, ∀ q, x.get i = .num q → boundAt b (within batched i) ≤ q) := by
    intro b hb
    rw [anyBound_full below s x b batched hs (fun a e => hf a (.inl (hb.trans (congrArg some e)))), ← below_false x hfin]
    exact ⟨fun e => by injection e, fun e => congrArg Except.ok e⟩
  have h2 : ∀ b, s.max = some b → (anyBound above x b = .ok false ↔
      ∀ i ∈ indices x.shape, ∀ q, x.get i = .num q → q ≤ boundAt b (within batched i)) := by
    intro b hb
    rw [anyBound_full above s x b batched hs (fun a e => hf a (.inr (hb.trans (congrArg some e)))), ← above_false x hfin]
    exact ⟨fun e => by injection e, fun e => congrArg Except.ok e⟩
  constructor
  · rintro ⟨g1, g2⟩ i hi q hq
    exact ⟨fun b hb => (h1 b hb).mp (g1 b hb) i hi q hq, fun b hb => (h2 b hb).mp (g2 b hb) i hi q hq⟩
  · intro h
    exact ⟨fun b hb => (h1 b hb).mpr fun i hi q hq => (h i hi q hq).1 b hb,
      fun b hb => (h2 b hb).mpr fun i hi q hq => (h i hi q hq).2 b hb⟩

theorem entries_iff (s : Spec) (batched : Bool) (x : Arr Elem) :
    (∀ i ∈ indices x.shape, ∃ q, x.get i = .num q ∧ InRange s (within batched i) q) ↔
      (∀ i ∈ indices x.shape, ∃ q, x.get i = .num q) ∧
        ∀ i ∈ indices x.shape, ∀ q, x.get i = .num q → InRange s (within batched i) q := by
  constructor
  · intro h
    refine ⟨fun i hi => ?_, fun i hi q hq => ?_⟩
    · obtain ⟨q, hq, _⟩ := h i hi
      exact ⟨q, hq⟩
    · obtain ⟨q', hq', hr⟩ := h i hi
      rw [hq] at hq'
      cases hq'
      exact hr
  · rintro ⟨h1, h2⟩ i hi
    obtain ⟨q, hq⟩ := h1 i hi
    exact ⟨q, hq, h2 i hi q hq⟩

theorem checkValue_ok (s : Spec) (batched : Bool) (x : Arr Elem) (hb : batched = true → x.shape ≠ []) (hf : FullBounds s) :
    checkValue s batched x = .ok () ↔ ShapeFits s batched x.shape ∧
      ∀ i ∈ indices x.shape, ∃ q, x.get i = .num q ∧ InRange s (within batched i) q := by
  rw [entries_iff, ← shapeFits_iff s batched x.shape hb]
  unfold checkValue
  by_cases h1 : (x.shape.drop (if batched then 1 else 0)).map Int.ofNat = s.shape
  · rw [if_neg (fun h => h h1)]
    have hs := (shapeFits_iff s batched x.shape hb).mp h1
    by_cases h2 : (indices x.shape).any (fun i => notFinite (x.get i)) = true
    · rw [if_pos h2]
      constructor
      · intro h; cases h
      · rintro ⟨_, h, _⟩
        rw [(finite_iff x).mpr h] at h2
        cases h2
    · rw [if_neg h2]
      have hfin := (finite_iff x).mp (Bool.eq_false_iff.mpr h2)
      rw [and_iff_right h1, and_iff_right hfin]
      unfold InRange
      cases ht : s.type with
      | bool => simp
      | float =>
        dsimp only
        rw [unit_bind]
        exact range_bounds s batched x hs hf hfin
      | int =>
        cases hn : s.num with
        | none =>
          dsimp only
          rw [unit_bind]
          exact range_bounds s batched x hs hf hfin
        | some n =>
          dsimp only
          constructor
          · intro h
            split at h
            · cases h
            · rename_i hc
              rw [Bool.not_eq_true, Bool.or_eq_false_iff] at hc
              intro i hi q hq
              exact ⟨(below_false x hfin (fun _ => 0)).mp hc.1 i hi q hq, (notBelow_false x hfin n).mp hc.2 i hi q hq⟩
          · intro h
            rw [if_neg]
            rw [Bool.not_eq_true, Bool.or_eq_false_iff]
            exact ⟨(below_false x hfin (fun _ => 0)).mpr fun i hi q hq => (h i hi q hq).1,
              (notBelow_false x hfin n).mpr fun i hi q hq => (h i hi q hq).2⟩
  · rw [if_pos h1]
    constructor
    · intro h; cases h
    · rintro ⟨h, _⟩; exact (h1 h).elim

theorem underspecified_iff (s : Spec) : underspecified s = false ↔ Complete s := by
  unfold underspecified Complete
  rw [Bool.or_eq_false_iff, List.any_eq_false]
  refine and_congr ?_ ?_
  · simp [Int.not_le]
  · cases s.type <;> cases s.num <;> simp [Int.not_le]

theorem truncate_int (n : Int) : truncate n = n := by
  unfold truncate
  split <;> simp

/-- Conversion leaves fitting numbers as they are. -/
theorem cast_fits (junk : Int) (type : Base) (x : Typed) (ht : TypeFits type x.dtype) (hw : WellTyped x) (i : List Nat)
    (hi : i ∈ indices x.arr.shape) : cast junk type (x.arr.get i) = x.arr.get i := by
  have h := hw i hi
  rcases ht with h1 | ⟨h1, h2⟩
  · rw [h1] at h
    cases type with
    | bool =>
      rcases h with h | h <;> rw [h] <;> rfl
    | int =>
      obtain ⟨n, h⟩ := h
      rw [h]
      exact congrArg Elem.num (truncate_int n)
    | float => rfl
  · rw [h1]; rfl

theorem each_ok (junk : Int) (batched recover : Bool) (values : List (String × Typed)) (specs : List (String × Spec)) :
    (∃ ts, toTensorEach junk batched recover values specs = .ok ts) ↔
      ∀ x ∈ specs, ∃ v t, values.lookup x.1 = some v ∧ toTensor junk x.2 batched v = .ok t := by
  induction specs with
  | nil => simp [toTensorEach]
  | cons y r ih =>
    obtain ⟨name, s⟩ := y
    rw [toTensorEach]
    rw [List.forall_mem_cons, ← ih]
    cases hv : values.lookup name with
    | none => simp
    | some v =>
      dsimp only
      constructor
      · rintro ⟨ts, h⟩
        obtain ⟨t, h1, h2⟩ := (bind_ok ..).mp h
        obtain ⟨ts', h3, _⟩ := (bind_ok ..).mp h2
        exact ⟨⟨v, t, rfl, h1⟩, ts', h3⟩
      · rintro ⟨⟨v', t, e, h1⟩, ts', h3⟩
        cases e
        exact ⟨_, (bind_ok ..).mpr ⟨t, h1, (bind_ok ..).mpr ⟨ts', h3, rfl⟩⟩⟩

theorem sameKeys_iff {α β : Type} (values : List (String × α)) (specs : List (String × β)) :
    sameKeys values specs = true ↔ ∀ k, k ∈ values.map Prod.fst ↔ k ∈ specs.map Prod.fst := by
  unfold sameKeys
  rw [Bool.and_eq_true, List.all_eq_true, List.all_eq_true]
  simp only [List.any_eq_true, beq_iff_eq, List.mem_map]
  constructor
  · rintro ⟨h1, h2⟩ k
    constructor
    · rintro ⟨x, hx, rfl⟩
      obtain ⟨y, hy, e⟩ := h1 x hx
      exact ⟨y, hy, e.symm⟩
    · rintro ⟨y, hy, rfl⟩
      obtain ⟨x, hx, e⟩ := h2 y hy
      exact ⟨x, hx, e⟩
  · intro h
    refine ⟨fun x hx => ?_, fun y hy => ?_⟩
    · obtain ⟨y, hy, e⟩ := (h x.1).mp ⟨x, hx, rfl⟩
      exact ⟨y, hy, e.symm⟩
    · obtain ⟨x, hx, e⟩ := (h y.1).mpr ⟨y, hy, rfl⟩
      exact ⟨x, hx, e⟩

theorem each_contents (junk : Int) (batched recover : Bool) (values : List (String × Typed)) (specs : List (String × Spec))
    (ts : List (String × Typed)) (h : toTensorEach junk batched recover values specs = .ok ts) :
    ts.length = specs.length ∧ ∀ k (hk : k < specs.length) (ht : k < ts.length), ts[k].1 = specs[k].1 ∧
      ∃ v, values.lookup specs[k].1 = some v ∧ toTensor junk specs[k].2 batched v = .ok ts[k].2 := by
  induction specs generalizing ts with
  | nil =>
    cases h
    exact ⟨rfl, fun k hk => absurd hk (Nat.not_lt_zero k)⟩
  | cons y r ih =>
    obtain ⟨name, s⟩ := y
    rw [toTensorEach] at h
    cases hv : values.lookup name with
    | none => rw [hv] at h; cases h
    | some v =>
      rw [hv] at h
      obtain ⟨t, h1, h2⟩ := (bind_ok ..).mp h
      obtain ⟨ts', h3, h4⟩ := (bind_ok ..).mp h2
      cases h4
      obtain ⟨g1, g2⟩ := ih ts' h3
      refine ⟨by simp [g1], fun k hk ht => ?_⟩
      cases k with
      | zero => exact ⟨rfl, v, hv, h1⟩
      | succ k => exact g2 k (by simpa using hk) (by simpa using ht)

theorem lookup_mem {α : Type} {k : String} {l : List (String × α)} {v : α} (h : l.lookup k = some v) : k ∈ l.map Prod.fst := by
  induction l with
  | nil => cases h
  | cons y r ih =>
    obtain ⟨n, x⟩ := y
    rw [List.lookup_cons] at h
    by_cases e : k = n
    · rw [e]
      exact List.mem_cons_self ..
    · rw [beq_false_of_ne e] at h
      exact List.mem_cons_of_mem _ (ih h)

theorem arrayType_iff (s : Spec) (d : Base) :
    arrayType s d = true ↔ TypeFits s.type d ∨ s.type = .int ∧ (d = .float ∨ d = .bool ∧ s.num = some 2) := by
  unfold arrayType TypeFits
  cases s.type <;> cases d <;> simp

theorem checkArray_ok (s : Spec) (batched : Bool) (d : Base) (shape : List Nat) : checkArray s batched d shape = .ok () ↔
    (TypeFits s.type d ∨ s.type = .int ∧ (d = .float ∨ d = .bool ∧ s.num = some 2)) ∧
      (shape.drop (if batched then 1 else 0)).map Int.ofNat = s.shape := by
  rw [← arrayType_iff]
  unfold checkArray
  by_cases h1 : arrayType s d = true
  · rw [h1]
    by_cases h2 : (shape.drop (if batched then 1 else 0)).map Int.ofNat = s.shape
    · simp [h2]
    · simp [h2]
  · simp [h1]

end Verif.Convert
