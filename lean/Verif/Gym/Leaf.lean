import Verif.Gym.Names

/-! # Spaces of one component -/

namespace Verif.Gym

theorem zipWith_all_left {α β : Type} {f : α → β → Bool} {x : α} : ∀ {l : List α} {r : List β}, l.length = r.length →
    (∀ y ∈ l, y = x) → ((List.zipWith f l r).all id = r.all (f x))
  | [], [], _, _ => rfl
  | a :: l, b :: r, h, hx => by
    simp only [List.zipWith_cons_cons, List.all_cons, id]
    rw [hx a (List.mem_cons_self ..), zipWith_all_left (by simpa using h) (fun y hy => hx y (List.mem_cons_of_mem _ hy))]
  | [], _ :: _, h, _ => by simp at h
  | _ :: _, [], h, _ => by simp at h

theorem zipWith_all_right {α β : Type} {f : α → β → Bool} {x : β} : ∀ {l : List α} {r : List β}, l.length = r.length →
    (∀ y ∈ r, y = x) → ((List.zipWith f l r).all id = l.all (f · x))
  | [], [], _, _ => rfl
  | a :: l, b :: r, h, hx => by
    simp only [List.zipWith_cons_cons, List.all_cons, id]
    rw [hx b (List.mem_cons_self ..), zipWith_all_right (by simpa using h) (fun y hy => hx y (List.mem_cons_of_mem _ hy))]
  | [], _ :: _, h, _ => by simp at h
  | _ :: _, [], h, _ => by simp at h

theorem negInf_le {x : Num} (h : x.isFin = true) : Num.le .negInf x = true := by
  cases x <;> simp_all [Num.isFin, Num.le]

theorem le_posInf {x : Num} (h : x.isFin = true) : Num.le x .posInf = true := by
  cases x <;> simp_all [Num.isFin, Num.le]

theorem all_fin {xs : List Num} : xs.all Num.isFin = true ↔ ∀ x ∈ xs, x.isFin = true := List.all_eq_true

theorem plain_fin {x : Num} (h : plainBound x = true) (hf : x.isFin = true) : lowLimit.lt x = true ∧ x.lt highLimit = true := by
  cases x <;> simp_all [plainBound, Num.isFin]

theorem plain_low {x : Num} (h : plainBound x = true) (hf : x.isFin = false) (hp : x ≠ .posInf) : x = .negInf := by
  cases x with
  | fin r => simp [Num.isFin] at hf
  | posInf => exact absurd rfl hp
  | negInf => rfl
  | nan => simp [plainBound, lowLimit, Num.lt] at h

theorem plain_high {x : Num} (h : plainBound x = true) (hf : x.isFin = false) (hp : x ≠ .negInf) : x = .posInf := by
  cases x with
  | fin r => simp [Num.isFin] at hf
  | posInf => rfl
  | negInf => exact absurd rfl hp
  | nan => simp [plainBound, lowLimit, Num.lt] at h

theorem plainBounds_cases {xs : List Num} (h : plainBounds xs = true) :
    (∀ x ∈ xs, plainBound x = true) ∧ ((∀ x ∈ xs, x.isFin = true) ∨ (∀ x ∈ xs, x.isFin = false)) := by
  simp only [plainBounds, Bool.and_eq_true, Bool.or_eq_true, Bool.not_eq_true', List.all_eq_true] at h
  refine ⟨h.1, ?_⟩
  rcases h.2 with h2 | h2
  · exact .inl h2
  · refine .inr fun x hx => ?_
    rw [List.any_eq_false] at h2
    simpa using h2 x hx

theorem lowSpec_ok {low : List Num} (hne : low ≠ []) (hp : ∀ x ∈ low, x ≠ Num.posInf) (h : plainBounds low = true) :
    ∃ L, lowSpec false none low = .ok L ∧ ∀ xs : List Num, xs.all Num.isFin = true → low.length = xs.length →
      L.below xs = (List.zipWith Num.le low xs).all id := by
  obtain ⟨h1, h2⟩ := plainBounds_cases h
  cases low with
  | nil => exact absurd rfl hne
  | cons x rest =>
    have hx := List.mem_cons_self (a := x) (l := rest)
    rw [lowSpec]
    rcases h2 with h2 | h2
    · have hl : ∀ y ∈ x :: rest, lowLimit.lt y = true := fun y hy => (plain_fin (h1 y hy) (h2 y hy)).1
      by_cases hu : (x :: rest).all (· == x) = true
      · refine ⟨.scalar x, by rw [if_pos hu, if_pos (hl x hx)], fun xs _ hlen => ?_⟩
        rw [List.all_eq_true] at hu
        rw [zipWith_all_left hlen (fun y hy => by simpa using hu y hy), Limit.below]
      · refine ⟨.array (x :: rest), by
          rw [if_neg hu, if_neg (by simp), if_pos (List.all_eq_true.mpr hl)], fun xs _ hlen => ?_⟩
        rw [Limit.below, hlen]
        simp
    · have hn : ∀ y ∈ x :: rest, y = Num.negInf := fun y hy => plain_low (h1 y hy) (h2 y hy) (hp y hy)
      have hu : (x :: rest).all (· == x) = true := by
        rw [List.all_eq_true]
        intro y hy
        rw [hn y hy, hn x hx]
        simp
      refine ⟨.none, by
        rw [if_pos hu, if_neg (by rw [hn x hx]; decide)], fun xs hf hlen => ?_⟩
      rw [zipWith_all_left hlen hn, Limit.below]
      symm
      rw [List.all_eq_true]
      exact fun y hy => negInf_le (all_fin.mp hf y hy)

theorem highSpec_ok {high : List Num} (hne : high ≠ []) (hp : ∀ x ∈ high, x ≠ Num.negInf) (h : plainBounds high = true) :
    ∃ L, highSpec false none high = .ok L ∧ ∀ xs : List Num, xs.all Num.isFin = true → high.length = xs.length →
      L.above xs = (List.zipWith Num.le xs high).all id := by
  obtain ⟨h1, h2⟩ := plainBounds_cases h
  cases high with
  | nil => exact absurd rfl hne
  | cons x rest =>
    have hx := List.mem_cons_self (a := x) (l := rest)
    rw [highSpec]
    rcases h2 with h2 | h2
    · have hl : ∀ y ∈ x :: rest, y.lt highLimit = true := fun y hy => (plain_fin (h1 y hy) (h2 y hy)).2
      by_cases hu : (x :: rest).all (· == x) = true
      · refine ⟨.scalar x, by rw [if_pos hu, if_pos (hl x hx)], fun xs _ hlen => ?_⟩
        rw [List.all_eq_true] at hu
        rw [zipWith_all_right hlen.symm (fun y hy => by simpa using hu y hy), Limit.above]
      · refine ⟨.array (x :: rest), by
          rw [if_neg hu, if_neg (by simp), if_pos (List.all_eq_true.mpr hl)], fun xs _ hlen => ?_⟩
        rw [Limit.above, hlen]
        simp
    · have hn : ∀ y ∈ x :: rest, y = Num.posInf := fun y hy => plain_high (h1 y hy) (h2 y hy) (hp y hy)
      have hu : (x :: rest).all (· == x) = true := by
        rw [List.all_eq_true]
        intro y hy
        rw [hn y hy, hn x hx]
        simp
      refine ⟨.none, by
        rw [if_pos hu, if_neg (by rw [hn x hx]; decide)], fun xs hf hlen => ?_⟩
      rw [zipWith_all_right hlen.symm hn, Limit.above]
      symm
      rw [List.all_eq_true]
      exact fun y hy => le_posInf (all_fin.mp hf y hy)

theorem natBelow_fin {n : Nat} {x : Num} (h : natBelow n x = true) : x.isFin = true := by
  cases x <;> simp_all [natBelow, Num.isFin]

theorem okNum_fin {l : Leaf} {x : Num} (h : l.okNum x = true) : x.isFin = true := by
  cases x with
  | fin r => rfl
  | posInf => cases hk : l.kind <;> simp [Leaf.okNum, hk] at h
  | negInf => cases hk : l.kind <;> simp [Leaf.okNum, hk] at h
  | nan => cases hk : l.kind <;> simp [Leaf.okNum, hk] at h

theorem okNum_int {shape : List Nat} {n : Nat} {lo hi : Limit} {x : Num} :
    (Leaf.okNum { kind := .int, shape := shape, numValues := some n, low := lo, high := hi } x) = natBelow n x := by
  cases x <;> rfl

theorem okNum_float {shape : List Nat} {lo hi : Limit} {x : Num} :
    (Leaf.okNum { kind := .float, shape := shape, low := lo, high := hi } x) = x.isFin := by
  cases x <;> rfl

theorem rat_below_two {r : Rat} : (r.den == 1 && decide (0 ≤ r) && decide (r < ((2 : Nat) : Rat))) = (r == 0 || r == 1) := by
  rw [Bool.eq_iff_iff]
  simp only [Bool.and_eq_true, Bool.or_eq_true, beq_iff_eq, decide_eq_true_eq]
  constructor
  · rintro ⟨⟨h1, h2⟩, h3⟩
    have e : r = (r.num : Rat) := by
      have := Rat.mk_den_one (r := r.num)
      rw [← this]
      cases r
      simp_all
    rw [e] at h2 h3
    have h2' : (0 : Int) ≤ r.num := by exact_mod_cast h2
    have h3' : r.num < 2 := by exact_mod_cast h3
    have : r.num = 0 ∨ r.num = 1 := by omega
    rcases this with h | h
    · left; rw [e, h]; rfl
    · right; rw [e, h]; rfl
  · rintro (rfl | rfl)
    · decide
    · decide

theorem okNum_bool {shape : List Nat} {x : Num} : (Leaf.okNum { kind := .bool, shape := shape } x) = natBelow 2 x := by
  cases x with
  | fin r => exact rat_below_two.symm
  | _ => rfl

theorem all_congr' {α : Type} {f g : α → Bool} (h : ∀ x, f x = g x) (l : List α) : l.all f = l.all g := by
  rw [funext h]

/-- The specification of a plain space allows exactly the elements of the space. -/
theorem plain_ok {s : Space} (hw : s.wf = true) (hs : s.plain = true) :
    ∃ l, specs false none none s = .ok (.leaf l) ∧ (∀ a, l.fits a = s.mem (.array a)) ∧
      ∀ a, named s (.array a) = .one a := by
  cases s with
  | discrete n =>
    refine ⟨_, rfl, fun a => ?_, fun a => rfl⟩
    simp only [Leaf.fits, Space.mem, size, Limit.below, Limit.above, Bool.and_true]
    rw [all_congr' (fun x => okNum_int)]
  | multiBinary n =>
    refine ⟨_, rfl, fun a => ?_, fun a => rfl⟩
    simp only [Leaf.fits, Space.mem, size, Limit.below, Limit.above, Bool.and_true, Nat.mul_one]
    rw [all_congr' (fun x => okNum_bool)]
  | multiDiscrete shape nvec =>
    simp only [Space.plain, Space.simple] at hs
    simp only [Space.wf, Bool.and_eq_true, beq_iff_eq] at hw
    have hne : nvec ≠ [] := by simpa using hw.1.1.2
    cases nvec with
    | nil => exact absurd rfl hne
    | cons x xs =>
      refine ⟨_, specs_mdc_uniform hs, fun a => ?_, fun a => by simp [named, hs]⟩
      simp only [Leaf.fits, Space.mem, Limit.below, Limit.above, Bool.and_true]
      rw [all_congr' (fun x => okNum_int), ← hw.1.1.1]
      rw [uniform_cons, List.all_eq_true] at hs
      by_cases hl : a.elems.length = (x :: xs).length
      · rw [zipWith_all_left hl.symm (fun y hy => by simpa using hs y hy)]
      · have : (a.elems.length == (x :: xs).length) = false := by simpa using hl
        rw [this]
        simp
  | box shape low high =>
    simp only [Space.plain, Bool.and_eq_true] at hs
    simp only [Space.wf, goodBox, Bool.and_eq_true, beq_iff_eq, decide_eq_true_eq, List.all_eq_true] at hw
    obtain ⟨⟨⟨⟨⟨h1, h2⟩, h3⟩, h4⟩, h5⟩, h6⟩ := hw
    have h3' : high ≠ [] := by
      intro e
      apply h3
      rw [e] at h2
      exact List.length_eq_zero_iff.mp (h1.trans h2.symm)
    obtain ⟨L, hL, hL'⟩ := lowSpec_ok h3 h5 hs.1
    obtain ⟨H, hH, hH'⟩ := highSpec_ok h3' h6 hs.2
    refine ⟨{ kind := .float, shape := shape, low := L, high := H }, ?_, fun a => ?_, fun a => rfl⟩
    · simp only [specs, boxSpec, hL, hH]
    · simp only [Leaf.fits, Space.mem]
      rw [all_congr' (fun x => okNum_float), ← h1]
      by_cases hl : a.elems.length = low.length
      · cases hf : a.elems.all Num.isFin with
        | true => rw [hL' _ hf hl.symm, hH' _ hf (by omega)]
        | false => simp
      · have : (a.elems.length == low.length) = false := by simpa using hl
        rw [this]
        simp
  | tuple ss => simp [Space.plain, Space.simple] at hs
  | dict ss => simp [Space.plain, Space.simple] at hs
  | other => simp [Space.plain, Space.simple] at hs

end Verif.Gym
