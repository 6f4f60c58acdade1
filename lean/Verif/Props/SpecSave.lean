import Verif.Convert.SaveLemmas

/-!
# Property C112: specifications are accepted if consistent, keep their bounds, and survive saving and copying

* `values_accepted`: which specifications with a number of values are accepted, and what they are,
* `numbers_accepted_partial`: the same for bounds which are numbers,
* `arrays_accepted_partial`: the same for bounds given for every entry,
* `bounds_kept_partial`: the bounds for each entry are the given ones, without fractional parts for integers,
* `bounds_shape`: bounds which are arrays are given for leading dimensions,
* `saved`: every specification is read back as it was saved,
* `copied_partial`: copies are the same,
* `truncated_violation`, `equal_violation`, `close_violation`, `copy_violation`, `mixed_violation`.
-/

namespace Verif.Props.SpecSave

open Verif.Convert

/-- C112: with a number of values the type must be integer and no bounds be given, and the bounds follow from the number. -/
theorem values_accepted (type : Base) (shape : List Int) (min max : Option Raw) (n : Int) (s : Spec) :
    create type shape min max (some n) = .ok s ↔ (∀ d ∈ shape, -1 ≤ d) ∧ min = none ∧ max = none ∧ type = .int ∧ 0 ≤ n ∧
      s = ⟨.int, shape, if 0 < n then some (.one 0) else none, if 0 < n then some (.one (n - 1)) else none, some n⟩ := create_num ..

example : create .int [2] none none (some 3) = .ok ⟨.int, [2], some (.one 0), some (.one ((3 : Int) - 1)), some 3⟩ := rfl

/-- C112, partial: bounds which are numbers are accepted for numbers if the maximum is above the minimum by a millionth, after
removing the fractional parts for integers.  Missing: see `truncated_violation`, `equal_violation` and `close_violation`. -/
theorem numbers_accepted_partial (type : Base) (shape : List Int) (a b : Rat) (s : Spec) :
    create type shape (some (.one a)) (some (.one b)) none = .ok s ↔ (∀ d ∈ shape, -1 ≤ d) ∧ type ≠ .bool ∧
      rounded type a + 1 / 1000000 ≤ rounded type b ∧
      s = ⟨type, shape, some (.one (rounded type a)), some (.one (rounded type b)), none⟩ := by
  have hc (x y : Rat) : tooClose (.one x) (.one y) = .ok (decide (x < y + 1 / 1000000)) := by
    show Except.ok ([([] : List Nat)].any fun _ => decide (x < y + 1 / 1000000)) = _
    rw [List.any_cons, List.any_nil, Bool.or_false]
  rw [create_bounds]
  constructor
  · rintro ⟨hs, lo, hi, hlo, hhi, rfl⟩
    rcases (optional_ok ..).mp hlo with ⟨e, _⟩ | ⟨r, l, e1, rfl, h3⟩
    · cases e
    · cases e1
      obtain ⟨h4, _, rfl⟩ := (setMin_ok ..).mp h3
      rcases (optional_ok ..).mp hhi with ⟨e, _⟩ | ⟨r, m, e1, rfl, h3⟩
      · cases e
      · cases e1
        obtain ⟨_, _, h6, rfl⟩ := (setMax_ok ..).mp h3
        have h7 := h6 _ rfl
        rw [convertBound_one, convertBound_one, hc] at h7
        have h8 := of_decide_eq_false (Except.ok.inj h7)
        refine ⟨hs, h4, Rat.not_lt.mp h8, ?_⟩
        rw [convertBound_one, convertBound_one]
  · rintro ⟨hs, ht, hab, rfl⟩
    refine ⟨hs, some (.one (rounded type a)), some (.one (rounded type b)), ?_, ?_, rfl⟩
    · refine (optional_ok ..).mpr (.inr ⟨_, _, rfl, rfl, (setMin_ok ..).mpr ⟨ht, rfl, ?_⟩⟩)
      rw [convertBound_one]
    · refine (optional_ok ..).mpr (.inr ⟨_, _, rfl, rfl, (setMax_ok ..).mpr ⟨ht, rfl, ?_, ?_⟩⟩)
      · intro l e
        cases e
        rw [hc, decide_eq_false (Rat.not_lt.mpr hab)]
      · rw [convertBound_one]

example : rounded .float 0 + 1 / 1000000 ≤ rounded .float 1 := by decide +kernel

/-- C112, partial: bounds given for every entry are accepted if each maximum is above the minimum by a millionth.  Missing: as
above. -/
theorem arrays_accepted_partial (type : Base) (shape : List Nat) (lo hi : Arr Rat) (h1 : lo.shape = shape) (h2 : hi.shape = shape) :
    (∃ s, create type (shape.map Int.ofNat) (some (.lists lo)) (some (.lists hi)) none = .ok s) ↔ type ≠ .bool ∧
      ∀ i ∈ indices shape, rounded type (lo.get i) + 1 / 1000000 ≤ rounded type (hi.get i) := by
  have hs : ∀ d ∈ shape.map Int.ofNat, -1 ≤ d := by
    intro d hd
    obtain ⟨n, _, rfl⟩ := List.mem_map.mp hd
    show -1 ≤ (n : Int)
    omega
  have hb (a : Arr Rat) (h : a.shape = shape) : boundShape (shape.map Int.ofNat) (convertBound type (.lists a)) = true := by
    show (a.shape.map Int.ofNat == (shape.map Int.ofNat).take a.shape.length && decide (a.shape.length ≤ (shape.map Int.ofNat).length)) = true
    rw [h, List.length_map, List.take_of_length_le (by simp)]
    simp
  have hc : tooClose (convertBound type (.lists hi)) (convertBound type (.lists lo)) =
      .ok ((indices shape).any (fun i => decide (rounded type (hi.get i) < rounded type (lo.get i) + 1 / 1000000))) := by
    have := anyPair_same (fun h l => decide (h < l + epsilon)) (asArr (convertBound type (.lists hi)))
      (asArr (convertBound type (.lists lo))) (h2.trans h1.symm)
    have e : (asArr (convertBound type (.lists hi))).shape = shape := h2
    rw [e] at this
    refine this.trans ?_
    simp only [← toType_eq]
    rfl
  constructor
  · rintro ⟨s, h⟩
    obtain ⟨_, l, m, hlo, hhi, rfl⟩ := (create_bounds ..).mp h
    rcases (optional_ok ..).mp hlo with ⟨e, _⟩ | ⟨r, l, e1, rfl, h3⟩
    · cases e
    · cases e1
      obtain ⟨h4, _, rfl⟩ := (setMin_ok ..).mp h3
      rcases (optional_ok ..).mp hhi with ⟨e, _⟩ | ⟨r, m, e1, rfl, h3⟩
      · cases e
      · cases e1
        obtain ⟨_, _, h6, rfl⟩ := (setMax_ok ..).mp h3
        have h7 := h6 _ rfl
        rw [hc] at h7
        have h8 := List.any_eq_false.mp (Except.ok.inj h7)
        exact ⟨h4, fun i hi => Rat.not_lt.mp (fun hl => h8 i hi (decide_eq_true hl))⟩
  · rintro ⟨ht, h⟩
    refine ⟨_, (create_bounds ..).mpr ⟨hs, some _, some _,
      (optional_ok ..).mpr (.inr ⟨_, _, rfl, rfl, (setMin_ok ..).mpr ⟨ht, hb lo h1, rfl⟩⟩),
      (optional_ok ..).mpr (.inr ⟨_, _, rfl, rfl, (setMax_ok ..).mpr ⟨ht, hb hi h2, ?_, rfl⟩⟩), rfl⟩⟩
    intro l e
    cases e
    rw [hc]
    congr 1
    rw [List.any_eq_false]
    intro i hi hl
    exact Rat.not_lt.mpr (h i hi) (of_decide_eq_true hl)

example : ∀ i ∈ indices [2], rounded .float (0 : Rat) + 1 / 1000000 ≤ rounded .float 1 := by decide +kernel

/-- C112, partial: the bounds are the given ones, for every entry.  Missing: for integers fractional parts are dropped
(`truncated_violation`). -/
theorem bounds_kept_partial (type : Base) (shape : List Int) (min max : Option Raw) (s : Spec)
    (h : create type shape min max none = .ok s) : s.type = type ∧ s.shape = shape ∧ s.num = none ∧
      (min = none → s.min = none) ∧ (max = none → s.max = none) ∧
      (∀ r, min = some r → ∃ b, s.min = some b ∧ ∀ i, boundAt b i = rounded type (rawAt r i)) ∧
      ∀ r, max = some r → ∃ b, s.max = some b ∧ ∀ i, boundAt b i = rounded type (rawAt r i) := by
  obtain ⟨_, lo, hi, hlo, hhi, rfl⟩ := (create_bounds ..).mp h
  refine ⟨rfl, rfl, rfl, ?_, ?_, ?_, ?_⟩
  · intro e
    rcases (optional_ok ..).mp hlo with ⟨_, h⟩ | ⟨r, l, e1, _⟩
    · exact h
    · rw [e] at e1
      cases e1
  · intro e
    rcases (optional_ok ..).mp hhi with ⟨_, h⟩ | ⟨r, l, e1, _⟩
    · exact h
    · rw [e] at e1
      cases e1
  · intro r e
    rcases (optional_ok ..).mp hlo with ⟨e1, _⟩ | ⟨r', l, e1, rfl, h3⟩
    · rw [e] at e1
      cases e1
    · rw [e] at e1
      cases e1
      exact ⟨l, rfl, fun i => ((setMin_ok ..).mp h3).2.2 ▸ convertBound_at type r i⟩
  · intro r e
    rcases (optional_ok ..).mp hhi with ⟨e1, _⟩ | ⟨r', l, e1, rfl, h3⟩
    · rw [e] at e1
      cases e1
    · rw [e] at e1
      cases e1
      exact ⟨l, rfl, fun i => ((setMax_ok ..).mp h3).2.2.2 ▸ convertBound_at type r i⟩

example : ∃ s, create .float [2] (some (.array ⟨[2], fun _ => 0⟩)) none none = .ok s := ⟨_, rfl⟩

/-- C112: bounds which are arrays have the leading dimensions of the specified shape; other shapes are rejected. -/
theorem bounds_shape (type : Base) (shape : List Int) (min max : Option Raw) (s : Spec) (a : Arr Rat)
    (h : create type shape min max none = .ok s) (ha : s.min = some (.many a) ∨ s.max = some (.many a)) :
    a.shape.map Int.ofNat <+: shape := by
  obtain ⟨_, lo, hi, hlo, hhi, rfl⟩ := (create_bounds ..).mp h
  have key (hb : boundShape shape (.many a) = true) : a.shape.map Int.ofNat <+: shape := by
    rw [eq_of_beq (((Bool.and_eq_true ..).mp hb).1)]
    exact List.take_prefix ..
  rcases ha with e | e
  · have e : lo = some (.many a) := e
    subst e
    rcases (optional_ok ..).mp hlo with ⟨_, h⟩ | ⟨r, l, _, e1, h3⟩
    · cases h
    · cases e1
      obtain ⟨_, hb, e2⟩ := (setMin_ok ..).mp h3
      exact key (e2 ▸ hb)
  · have e : hi = some (.many a) := e
    subst e
    rcases (optional_ok ..).mp hhi with ⟨_, h⟩ | ⟨r, l, _, e1, h3⟩
    · cases h
    · cases e1
      obtain ⟨_, hb, _, e2⟩ := (setMax_ok ..).mp h3
      exact key (e2 ▸ hb)

example : ∃ s a, create .float [2, 3] (some (.array ⟨[2], fun _ => 0⟩)) none none = .ok s ∧ s.min = some (.many a) :=
  ⟨_, _, rfl, rfl⟩

/-- C112: every specification which can be created is read back as it was saved. -/
theorem saved (type : Base) (shape : List Int) (min max : Option Raw) (num : Option Int) (s : Spec)
    (h : create type shape min max num = .ok s) : load (json s) = .ok s := by
  cases num with
  | some n =>
    obtain ⟨hs, _, _, _, h0, rfl⟩ := (create_num ..).mp h
    exact (create_num ..).mpr ⟨hs, rfl, rfl, rfl, h0, rfl⟩
  | none =>
    obtain ⟨e1, e2, e3⟩ := create_type h
    cases type with
    | bool =>
      obtain ⟨rfl, rfl, rfl⟩ := create_bool h
      exact h
    | int =>
      have := create_again saveBound h (fun b ⟨r, _, hb⟩ => convertBound_save (hb ▸ convertBound_stable .int r))
      obtain ⟨t, sh, lo, hi, n⟩ := s
      cases e1
      cases e2
      cases e3
      exact this
    | float =>
      have := create_again saveBound h (fun b ⟨r, _, hb⟩ => convertBound_save (hb ▸ convertBound_stable .float r))
      obtain ⟨t, sh, lo, hi, n⟩ := s
      cases e1
      cases e2
      cases e3
      exact this

example : ∃ s, create .float [2] (some (.lists ⟨[2], fun _ => 0⟩)) none none = .ok s := ⟨_, rfl⟩

/-- C112, partial: a copy is the same.  Missing: bounds given as lists with a single entry (`copy_violation`). -/
theorem copied_partial (type : Base) (shape : List Int) (min max : Option Raw) (num : Option Int) (s : Spec) (h1 : NoLists min)
    (h2 : NoLists max) (h : create type shape min max num = .ok s) : copy s = .ok s := by
  have hg (t : Base) (b : Bound) (hb : ∃ r, (min = some r ∨ max = some r) ∧ b = convertBound t r) :
      convertBound t (passBound b) = b := by
    obtain ⟨r, hr, rfl⟩ := hb
    refine convertBound_pass (convertBound_stable t r) (convertBound_single ?_)
    rcases hr with hr | hr
    · exact hr ▸ h1
    · exact hr ▸ h2
  cases num with
  | some n =>
    obtain ⟨hs, _, _, _, h0, rfl⟩ := (create_num ..).mp h
    exact (create_num ..).mpr ⟨hs, rfl, rfl, rfl, h0, rfl⟩
  | none =>
    obtain ⟨e1, e2, e3⟩ := create_type h
    cases type with
    | bool =>
      obtain ⟨rfl, rfl, rfl⟩ := create_bool h
      exact h
    | int =>
      have := create_again passBound h (hg .int)
      obtain ⟨t, sh, lo, hi, n⟩ := s
      cases e1
      cases e2
      cases e3
      exact this
    | float =>
      have := create_again passBound h (hg .float)
      obtain ⟨t, sh, lo, hi, n⟩ := s
      cases e1
      cases e2
      cases e3
      exact this

example : NoLists (some (.array ⟨[2], fun _ => 0⟩)) ∧ ∃ s, create .float [2] (some (.array ⟨[2], fun _ => 0⟩)) none none = .ok s :=
  ⟨trivial, _, rfl⟩

/-- C112, violated: fractional parts of bounds are dropped, so a minimum of 1/2 allows zero, and a maximum of -1/2 allows zero. -/
theorem truncated_violation :
    (∃ s, create .int [] (some (.one (1 / 2))) none none = .ok s ∧ InRange s [] 0) ∧
    ∃ s, create .int [] none (some (.one (-1 / 2))) none = .ok s ∧ InRange s [] 0 := by
  refine ⟨⟨⟨.int, [], some (.one 0), none, none⟩, ?_, ?_, nofun⟩, ⟨⟨.int, [], none, some (.one 0), none⟩, ?_, nofun, ?_⟩⟩
  · show Except.ok (⟨.int, [], some (.one (toType .int (1 / 2))), none, none⟩ : Spec) = _
    rw [show toType .int (1 / 2) = 0 by decide +kernel]
  · intro b e
    cases e
    exact (by decide +kernel : (0 : Rat) ≤ 0)
  · show Except.ok (⟨.int, [], none, some (.one (toType .int (-1 / 2))), none⟩ : Spec) = _
    rw [show toType .int (-1 / 2) = 0 by decide +kernel]
  · intro b e
    cases e
    exact (by decide +kernel : (0 : Rat) ≤ 0)

/-- C112, violated: no specification has equal bounds, neither directly nor after dropping fractional parts, although a single value
would be allowed. -/
theorem equal_violation (type : Base) (shape : List Int) (a b : Rat) (h : rounded type a = rounded type b) (s : Spec) :
    create type shape (some (.one a)) (some (.one b)) none ≠ .ok s := by
  intro hs
  have := ((numbers_accepted_partial ..).mp hs).2.2.1
  rw [h] at this
  grind

example : rounded .int (1 / 2) = rounded .int (3 / 4) := by decide +kernel

/-- C112, violated: bounds of floats which are closer than a millionth are rejected. -/
theorem close_violation (shape : List Int) (a b : Rat) (_ : a ≤ b) (h : b < a + 1 / 1000000) (s : Spec) :
    create .float shape (some (.one a)) (some (.one b)) none ≠ .ok s := by
  intro hs
  have h1 : a + 1 / 1000000 ≤ b := ((numbers_accepted_partial ..).mp hs).2.2.1
  grind

example : (0 : Rat) ≤ 1 / 10000000 ∧ (1 / 10000000 : Rat) < 0 + 1 / 1000000 := by decide +kernel

/-- C112, violated: a bound given as a list with one entry is an array, but a number in the copy. -/
theorem copy_violation (q : Rat) : ∃ s t a, create .float [1] (some (.lists ⟨[1], fun _ => q⟩)) none none = .ok s ∧ copy s = .ok t ∧
    s.min = some (.many a) ∧ t.min = some (.one q) := ⟨_, _, _, rfl, rfl, rfl, rfl⟩

/-- C112, violated: both bounds have fitting shapes, but cannot be compared, since they are not of the same length. -/
theorem mixed_violation : create .float [2, 3] (some (.lists ⟨[2], fun _ => 0⟩)) (some (.lists ⟨[2, 3], fun _ => 1⟩)) none = .error .broadcast :=
  rfl

end Verif.Props.SpecSave
