import Verif.Convert.Lemmas

/-!
# Property C110: values are accepted exactly if they belong to the specified space, and are converted without change

* `accepted_partial`, `unchanged_partial`: values of the right type,
* `round_trip`: a converted value is converted back to the same value,
* `returned`: what is returned belongs to the specified space,
* `incomplete_rejected`: nothing belongs to an incomplete specification,
* `together_partial`: dictionaries are accepted exactly if their keys are the specified names and their values are accepted,
* `names_rejected`, `recovered`, `contents`: other keys are an error, except for internal states; what the result consists of,
* `type_violation`, `nan_violation`, `bool_violation`: values of other types are silently changed,
* `prefix_violation`, `prefix_error_violation`, `column_violation`: bounds for leading dimensions are applied to other entries or fail,
* `scalar_violation`: a single value is accepted in place of a batch,
* `surplus_violation`: unknown internal states are ignored.
-/

namespace Verif.Props.Convert

open Verif.Convert

/-- C110, partial: a value whose type fits is accepted exactly if it is an element of the specified space, or in the batched case
an array of elements.  Missing: values of other types (`type_violation`), bounds for leading dimensions larger than one (`prefix_violation`), and values
without dimensions in place of a batch (`scalar_violation`). -/
theorem accepted_partial (junk : Int) (s : Spec) (batched : Bool) (x : Typed) (hs : Complete s) (hf : FullBounds s)
    (hw : WellTyped x) (ht : TypeFits s.type x.dtype) (hb : batched = true → x.arr.shape ≠ []) :
    (∃ t, toTensor junk s batched x = .ok t) ↔ Element s batched x := by
  unfold toTensor
  rw [(underspecified_iff s).mpr hs]
  have hc := cast_fits junk s.type x ht hw
  have key := checkValue_ok s batched ⟨x.arr.shape, fun i => cast junk s.type (x.arr.get i)⟩ hb hf
  constructor
  · rintro ⟨t, h⟩
    obtain ⟨h1, _⟩ := (unit_bind ..).mp h
    obtain ⟨h2, h3⟩ := key.mp h1
    refine ⟨ht, h2, fun i hi => ?_⟩
    obtain ⟨q, hq, hr⟩ := h3 i hi
    exact ⟨q, (hc i hi).symm.trans hq, hr⟩
  · rintro ⟨_, h2, h3⟩
    refine ⟨_, (unit_bind ..).mpr ⟨key.mpr ⟨h2, fun i hi => ?_⟩, rfl⟩⟩
    obtain ⟨q, hq, hr⟩ := h3 i hi
    exact ⟨q, (hc i hi).trans hq, hr⟩

/-- A float specification with bounds for both entries. -/
def pair : Spec := ⟨.float, [2], some (.many ⟨[2], fun i => if i = [0] then 0 else 5⟩), some (.one 9), none⟩

def six : Typed := ⟨.int, ⟨[3, 2], fun _ => .num 6⟩⟩

example : Complete pair ∧ FullBounds pair ∧ WellTyped six ∧ TypeFits pair.type six.dtype ∧ six.arr.shape ≠ [] ∧
    Element pair true six := by
  have h1 : WellTyped six := fun i hi => ⟨6, rfl⟩
  have h2 : Complete pair := ⟨by decide, nofun⟩
  have h3 : FullBounds pair := by
    rintro a (h | h) <;> cases h
    exact .inl rfl
  refine ⟨h2, h3, h1, .inr ⟨rfl, rfl⟩, by decide, .inr ⟨rfl, rfl⟩, ⟨3, [2], rfl, rfl⟩, fun i hi => ⟨6, rfl, ?_, ?_⟩⟩
  · intro b e
    cases e
    show (if _ then _ else _ : Rat) ≤ 6
    split <;> decide +kernel
  · intro b e
    cases e
    show (6 : Rat) ≤ 9
    decide +kernel

/-- C110, partial: an accepted value has the specified type afterwards and the same entries.  Missing: values whose type does not
fit (`type_violation`, `nan_violation`, `bool_violation`). -/
theorem unchanged_partial (junk : Int) (s : Spec) (batched : Bool) (x t : Typed) (hw : WellTyped x) (ht : TypeFits s.type x.dtype)
    (h : toTensor junk s batched x = .ok t) : t.dtype = s.type ∧ Same t.arr x.arr := by
  unfold toTensor at h
  split at h
  · cases h
  · obtain ⟨_, h2⟩ := (unit_bind ..).mp h
    cases h2
    exact ⟨rfl, rfl, fun i hi => cast_fits junk s.type x ht hw i hi⟩

example : WellTyped six ∧ TypeFits pair.type six.dtype ∧ ∃ t, toTensor 0 pair true six = .ok t :=
  ⟨fun _ _ => ⟨6, rfl⟩, .inr ⟨rfl, rfl⟩, _, rfl⟩

/-- C110: whatever is accepted is converted back to the same tensor, or to its single entry. -/
theorem round_trip (junk : Int) (s : Spec) (batched : Bool) (x t : Typed) (h : toTensor junk s batched x = .ok t) :
    fromTensor s batched t = .ok (if s.shape = [] ∧ batched = false then .item s.type (t.arr.get []) else .array t) := by
  unfold toTensor at h
  split at h
  · cases h
  · rename_i hu
    obtain ⟨h1, h2⟩ := (unit_bind ..).mp h
    cases h2
    unfold fromTensor
    rw [if_neg hu, if_neg (fun h => h rfl)]
    refine (unit_bind ..).mpr ⟨h1, ?_⟩
    by_cases hc : s.shape = [] ∧ batched = false
    · rw [if_pos hc, if_pos hc]
    · rw [if_neg hc, if_neg hc]

example : ∃ t, toTensor 0 pair true six = .ok t := ⟨_, rfl⟩

/-- C110: tensors are accepted exactly if they have the specified type and belong to the specified space (for a single value:
without dimensions), so an agent never returns anything else. -/
theorem returned (s : Spec) (batched : Bool) (t : Typed) (hs : Complete s) (hf : FullBounds s)
    (hb : batched = true → t.arr.shape ≠ []) :
    (∃ r, fromTensor s batched t = .ok r) ↔ t.dtype = s.type ∧ Element s batched t := by
  unfold fromTensor
  rw [(underspecified_iff s).mpr hs]
  have key := checkValue_ok s batched t.arr hb hf
  by_cases ht : t.dtype = s.type
  · rw [if_neg (by simp), if_neg (fun h => h ht)]
    constructor
    · rintro ⟨r, h⟩
      obtain ⟨h1, _⟩ := (unit_bind ..).mp h
      obtain ⟨h2, h3⟩ := key.mp h1
      exact ⟨ht, .inl ht, h2, h3⟩
    · rintro ⟨_, _, h2, h3⟩
      by_cases hc : s.shape = [] ∧ batched = false
      · exact ⟨_, (unit_bind ..).mpr ⟨key.mpr ⟨h2, h3⟩, by rw [if_pos hc]⟩⟩
      · exact ⟨_, (unit_bind ..).mpr ⟨key.mpr ⟨h2, h3⟩, by rw [if_neg hc]⟩⟩
  · rw [if_neg (by simp), if_pos ht]
    constructor
    · rintro ⟨r, h⟩; cases h
    · rintro ⟨h, _⟩; exact (ht h).elim

example : Complete pair ∧ FullBounds pair := by
  refine ⟨⟨by decide, nofun⟩, ?_⟩
  rintro a (h | h) <;> cases h
  exact .inl rfl

/-- C110: with an incomplete specification nothing is accepted or returned. -/
theorem incomplete_rejected (junk : Int) (s : Spec) (batched : Bool) (x : Typed) (hs : ¬ Complete s) :
    toTensor junk s batched x = .error .unexpected ∧ fromTensor s batched x = .error .unexpected := by
  have h : underspecified s = true := by
    cases h : underspecified s with
    | true => rfl
    | false => exact (hs ((underspecified_iff s).mp h)).elim
  unfold toTensor fromTensor
  rw [if_pos h, if_pos h]
  exact ⟨rfl, rfl⟩

example : ¬ Complete ⟨.int, [], none, none, some 0⟩ := fun h => absurd (h.2 rfl 0 rfl) (by decide)

/-! ## Dictionaries -/

/-- C110, partial: a dictionary is accepted exactly if its keys are the specified names and each value is accepted.  Missing:
internal states, of which unknown ones are ignored (`surplus_violation`). -/
theorem together_partial (junk : Int) (batched : Bool) (specs : List (String × Spec)) (values : List (String × Typed)) :
    (∃ ts, toTensors junk batched false specs values = .ok ts) ↔
      (∀ k, k ∈ values.map Prod.fst ↔ k ∈ specs.map Prod.fst) ∧
        ∀ x ∈ specs, ∃ v t, values.lookup x.1 = some v ∧ toTensor junk x.2 batched v = .ok t := by
  unfold toTensors
  have hk := sameKeys_iff values specs
  by_cases h : sameKeys values specs = true
  · rw [h, and_iff_right (hk.mp h)]
    exact each_ok junk batched false values specs
  · rw [if_pos (by simp [h])]
    constructor
    · rintro ⟨ts, e⟩; cases e
    · rintro ⟨h1, _⟩; exact (h (hk.mpr h1)).elim

example : ∃ ts, toTensors 0 true false [("a", pair)] [("a", six)] = .ok ts := ⟨_, rfl⟩

/-- C110: with missing or surplus names the error is about the names. -/
theorem names_rejected (junk : Int) (batched : Bool) (specs : List (String × Spec)) (values : List (String × Typed)) (k : String)
    (h : ¬ (k ∈ values.map Prod.fst ↔ k ∈ specs.map Prod.fst)) : toTensors junk batched false specs values = .error .keys := by
  unfold toTensors
  rw [if_pos]
  cases hs : sameKeys values specs with
  | false => rfl
  | true => exact (h ((sameKeys_iff values specs).mp hs k)).elim

example : ¬ ("b" ∈ [("a", six)].map Prod.fst ↔ "b" ∈ [("a", pair), ("b", pair)].map Prod.fst) := by simp

/-- C110: internal states are accepted exactly if all specified ones are present and accepted. -/
theorem recovered (junk : Int) (batched : Bool) (specs : List (String × Spec)) (values : List (String × Typed)) :
    (∃ ts, toTensors junk batched true specs values = .ok ts) ↔
      ∀ x ∈ specs, ∃ v t, values.lookup x.1 = some v ∧ toTensor junk x.2 batched v = .ok t :=
  each_ok junk batched true values specs

example : ∃ ts, toTensors 0 true true [("a", pair)] [("b", six), ("a", six)] = .ok ts := ⟨_, rfl⟩

/-- C110: the result has the specified names in their order, each with the tensor of the value of this name. -/
theorem contents (junk : Int) (batched recover : Bool) (specs : List (String × Spec)) (values : List (String × Typed))
    (ts : List (String × Typed)) (h : toTensors junk batched recover specs values = .ok ts) :
    ts.length = specs.length ∧ ∀ k (hk : k < specs.length) (ht : k < ts.length), ts[k].1 = specs[k].1 ∧
      ∃ v, values.lookup specs[k].1 = some v ∧ toTensor junk specs[k].2 batched v = .ok ts[k].2 := by
  unfold toTensors at h
  split at h
  · cases h
  · exact each_contents junk batched recover values specs ts h

example : ∃ ts, toTensors 0 true false [("a", pair)] [("a", six)] = .ok ts := ⟨_, rfl⟩

/-- C110, violated: internal states which are not specified are ignored. -/
theorem surplus_violation (junk : Int) (batched : Bool) (values : List (String × Typed)) :
    toTensors junk batched true [] values = .ok [] := rfl

/-! ## Violations -/

/-- C110, violated: any number is accepted for an integer without bounds and loses its fractional part. -/
theorem type_violation (junk : Int) (q : Rat) :
    toTensor junk ⟨.int, [], none, none, none⟩ false ⟨.float, ⟨[], fun _ => .num q⟩⟩ =
      .ok ⟨.int, ⟨[], fun _ => .num (if 0 ≤ q then (q.floor : Rat) else (q.ceil : Rat))⟩⟩ := rfl

/-- C110, violated: `nan` is accepted as an integer without bounds. -/
theorem nan_violation (junk : Int) :
    toTensor junk ⟨.int, [], none, none, none⟩ false ⟨.float, ⟨[], fun _ => .nan⟩⟩ = .ok ⟨.int, ⟨[], fun _ => .num junk⟩⟩ := rfl

/-- C110, violated: everything is accepted as a truth value. -/
theorem bool_violation (junk : Int) (e : Elem) (dtype : Base) (he : e ≠ .num 0) :
    toTensor junk ⟨.bool, [], none, none, none⟩ false ⟨dtype, ⟨[], fun _ => e⟩⟩ = .ok ⟨.bool, ⟨[], fun _ => .num 1⟩⟩ := by
  have hc : cast junk .bool e = .num 1 := by
    cases e with
    | num q =>
      have : q ≠ 0 := fun h => he (by rw [h])
      show Elem.num (if q = 0 then 0 else 1) = _
      rw [if_neg this]
    | nan => rfl
    | inf p => rfl
  unfold toTensor
  rw [if_neg (by simp [underspecified])]
  refine (unit_bind ..).mpr ⟨?_, ?_⟩
  · simp [checkValue, indices, hc, notFinite]
  · simp [hc]

example : Elem.nan ≠ .num 0 := nofun

/-- Two rows, the second with a larger minimum. -/
def rows : Spec := ⟨.float, [2, 2], some (.many ⟨[2], fun i => if i = [0] then 0 else 5⟩), none, none⟩

/-- Two equal rows: 1, 9. -/
def columns : Typed := ⟨.float, ⟨[2, 2], fun i => if i.drop 1 = [0] then .num 1 else .num 9⟩⟩

/-- C110, violated: minima for the rows are accepted by the specification (see C112) but compared with the columns, so that a
value below the minimum of its row is accepted. -/
theorem prefix_violation (junk : Int) : (∃ t, toTensor junk rows false columns = .ok t) ∧ ¬ Element rows false columns := by
  refine ⟨⟨_, rfl⟩, ?_⟩
  rintro ⟨_, _, h⟩
  obtain ⟨q, hq, hr, _⟩ := h [1, 0] (by decide)
  have hq : (1 : Rat) = q := Elem.num.inj hq
  have hr := hr _ rfl
  rw [← hq] at hr
  revert hr
  decide +kernel

/-- C110, violated: with different numbers of rows and columns the comparison fails. -/
theorem prefix_error_violation (junk : Int) (get : List Nat → Rat) :
    toTensor junk ⟨.float, [2, 3], some (.many ⟨[2], get⟩), none, none⟩ false ⟨.float, ⟨[2, 3], fun _ => .num 0⟩⟩ =
      .error .broadcast := rfl

/-- Two rows with one entry each, the second with a larger minimum. -/
def column : Spec := ⟨.float, [2, 1], some (.many ⟨[2], fun i => if i = [0] then 0 else 5⟩), none, none⟩

/-- The rows 1 and 9. -/
def ascending : Typed := ⟨.float, ⟨[2, 1], fun i => if i = [0, 0] then .num 1 else .num 9⟩⟩

/-- C110, violated: if the rows have one entry, every entry is compared with the minima of all rows, so that an element is
rejected. -/
theorem column_violation (junk : Int) : Element column false ascending ∧ toTensor junk column false ascending = .error .minimum := by
  refine ⟨⟨.inl rfl, rfl, fun i hi => ?_⟩, rfl⟩
  have hi : i ∈ [[0, 0], [1, 0]] := hi
  rcases List.mem_cons.mp hi with e | hi
  · subst e
    refine ⟨1, rfl, ?_, nofun⟩
    intro b e
    cases e
    exact (by decide +kernel : (0 : Rat) ≤ 1)
  · have e := List.mem_singleton.mp hi
    subst e
    refine ⟨9, rfl, ?_, nofun⟩
    intro b e
    cases e
    exact (by decide +kernel : (5 : Rat) ≤ 9)

/-- C110, violated: a number is accepted where an array of numbers is expected. -/
theorem scalar_violation (junk : Int) (q : Rat) :
    toTensor junk ⟨.float, [], none, none, none⟩ true ⟨.float, ⟨[], fun _ => .num q⟩⟩ = .ok ⟨.float, ⟨[], fun _ => .num q⟩⟩ ∧
    ¬ Element ⟨.float, [], none, none, none⟩ true ⟨.float, ⟨[], fun _ => .num q⟩⟩ := by
  refine ⟨rfl, fun h => ?_⟩
  obtain ⟨n, r, e, _⟩ := h.shape
  cases e

end Verif.Props.Convert
