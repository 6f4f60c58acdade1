import Verif.Convert.Lemmas

/-!
# Property C111: outputs of environments are accepted exactly if they belong to the announced space

* `element_accepted`: everything which belongs to the announced space is accepted,
* `passes`: what is accepted in general: types and shapes only,
* `accepted_type_partial`: for truth values and floats the type is right,
* `elements_accepted_partial`: several states are accepted if each belongs to its space, without vectorization,
* `missing_rejected`: a missing state is an error,
* `range_violation`, `integer_violation`: values out of range and floats for integers are accepted,
* `vectorized_violation`: vectorized environments with several states are always rejected.
-/

namespace Verif.Props.Output

open Verif.Convert

/-- An output passes exactly if its type passes and its shape is right; its values do not matter. -/
theorem passes (s : Spec) (batched : Bool) (x : Output) : npAssert s batched x = .ok () ↔
    TypePasses s batched x ∧ ((asTyped x).arr.shape.drop (if batched then 1 else 0)).map Int.ofNat = s.shape := by
  cases x with
  | array d a => exact checkArray_ok s batched d a.shape
  | generic d e =>
    unfold npAssert TypePasses asTyped
    dsimp only
    by_cases h : batched = true ∨ s.shape ≠ []
    · rw [if_pos h, checkArray_ok]
      simp only [h, true_and]
    · rw [if_neg h]
      have h' := not_or.mp h
      have hs : s.shape = [] := Classical.byContradiction h'.2
      by_cases ht : d = s.type ∨ s.type = .float ∧ d = .int
      · rw [if_pos ht]
        have ht' : TypeFits s.type d := ht
        simp [ht', hs]
      · rw [if_neg ht]
        have ht' : ¬ TypeFits s.type d := ht
        simp [ht', h]
  | python d e =>
    unfold npAssert TypePasses asTyped
    dsimp only
    by_cases h : batched = true ∨ s.shape ≠ []
    · rw [if_pos h, checkArray_ok, if_pos h]
    · rw [if_neg h, if_neg h]
      have hs : s.shape = [] := Classical.byContradiction (not_or.mp h).2
      rw [hs]
      unfold TypeFits
      cases s.type <;> cases d <;> simp

example : npAssert ⟨.int, [], none, none, some 4⟩ true (.array .int ⟨[3], fun _ => .num 2⟩) = .ok () := rfl

/-- C111: everything which belongs to the announced space is accepted. -/
theorem element_accepted (s : Spec) (batched : Bool) (x : Output) (h : Element s batched (asTyped x)) : npAssert s batched x = .ok () := by
  rw [passes]
  refine ⟨?_, ?_⟩
  · have := h.type
    cases x <;> exact .inl this
  · have hs := h.shape
    unfold ShapeFits at hs
    cases batched with
    | false => exact hs
    | true =>
      obtain ⟨n, r, e, h2⟩ := hs
      rw [e]
      exact h2

example : Element ⟨.int, [], none, none, some 4⟩ false (asTyped (.python .int (.num 2))) :=
  ⟨.inl rfl, rfl, fun i _ => ⟨2, rfl, (by decide +kernel : (0 : Rat) ≤ 2), (by decide +kernel : (2 : Rat) < ((4 : Int) : Rat))⟩⟩

/-- C111, partial: what is accepted for truth values and floats has the right type (Python's truth values count as floats).
Missing: integers (`integer_violation`), and the values (`range_violation`). -/
theorem accepted_type_partial (s : Spec) (batched : Bool) (x : Output) (ht : s.type ≠ .int) (h : npAssert s batched x = .ok ()) :
    TypeFits s.type (asTyped x).dtype ∨ s.type = .float ∧ ∃ e, x = .python .bool e := by
  have h1 := ((passes s batched x).mp h).1
  cases x with
  | array d a =>
    rcases h1 with h1 | h1
    · exact .inl h1
    · exact (ht h1.1).elim
  | generic d e =>
    rcases h1 with h1 | h1
    · exact .inl h1
    · exact (ht h1.2.1).elim
  | python d e =>
    rcases h1 with h1 | h1
    · exact .inl h1
    · split at h1
      · exact (ht h1.1).elim
      · obtain ⟨e1, e2⟩ := h1
        subst e1
        refine .inr ⟨?_, e, rfl⟩
        cases hs : s.type with
        | bool => exact (e2 hs).elim
        | int => exact (ht hs).elim
        | float => rfl

example : npAssert ⟨.float, [], none, none, none⟩ false (.python .bool (.num 1)) = .ok () := rfl

/-- C111, partial: several states are accepted if each of them belongs to its space.  Missing: vectorized environments
(`vectorized_violation`). -/
theorem elements_accepted_partial (specs : List (String × Spec)) (values : List (String × Output))
    (h : ∀ x ∈ specs, ∃ v, values.lookup x.1 = some v ∧ Element x.2 false (asTyped v)) : npAssertAll specs false values = .ok () := by
  induction specs with
  | nil => rfl
  | cons y r ih =>
    obtain ⟨name, s⟩ := y
    obtain ⟨v, hv, he⟩ := h _ (List.mem_cons_self ..)
    rw [npAssertAll, hv]
    exact (unit_bind ..).mpr ⟨element_accepted s false v he, ih (fun x hx => h x (List.mem_cons_of_mem _ hx))⟩

example : ∀ x ∈ [("a", (⟨.int, [], none, none, some 4⟩ : Spec))], ∃ v, [("a", Output.python .int (.num 2))].lookup x.1 = some v ∧
    Element x.2 false (asTyped v) := by
  intro x hx
  rw [List.mem_singleton.mp hx]
  exact ⟨_, rfl, .inl rfl, rfl, fun i _ => ⟨2, rfl, (by decide +kernel : (0 : Rat) ≤ 2), (by decide +kernel : (2 : Rat) < ((4 : Int) : Rat))⟩⟩

/-- C111: if a state is missing, the output is rejected. -/
theorem missing_rejected (specs : List (String × Spec)) (batched : Bool) (values : List (String × Output)) (k : String)
    (h : k ∈ specs.map Prod.fst) (hv : k ∉ values.map Prod.fst) : npAssertAll specs batched values ≠ .ok () := by
  induction specs with
  | nil => cases h
  | cons y r ih =>
    obtain ⟨name, s⟩ := y
    rw [npAssertAll]
    cases hl : values.lookup name with
    | none => nofun
    | some v =>
      rcases List.mem_cons.mp h with e | h
      · have e : k = name := e
        subst e
        exact (hv (lookup_mem hl)).elim
      · exact fun g => ih h ((unit_bind ..).mp g).2

example : "b" ∈ [("a", (⟨.bool, [], none, none, none⟩ : Spec)), ("b", ⟨.bool, [], none, none, none⟩)].map Prod.fst ∧
    "b" ∉ [("a", Output.python .bool (.num 0))].map Prod.fst := by simp

/-- C111, violated: values do not matter, for instance any number passes for a float between zero and one, and any integer for one
of four values. -/
theorem range_violation (q : Rat) (n : Int) :
    npAssert ⟨.float, [], some (.one 0), some (.one 1), none⟩ false (.python .float (.num q)) = .ok () ∧
    npAssert ⟨.int, [], some (.one 0), some (.one 3), some 4⟩ false (.python .int (.num n)) = .ok () ∧
    npAssert ⟨.float, [1], some (.one 0), some (.one 1), none⟩ false (.array .float ⟨[1], fun _ => .nan⟩) = .ok () :=
  ⟨rfl, rfl, rfl⟩

/-- C111, violated: arrays of floats pass for integers. -/
theorem integer_violation (s : Spec) (hs : s.type = .int) (a : Arr Elem) (ha : a.shape.map Int.ofNat = s.shape) :
    npAssert s false (.array .float a) = .ok () := (passes s false _).mpr ⟨.inr ⟨hs, .inl rfl⟩, ha⟩

example : (Arr.mk [2] fun _ => Elem.num (1 / 2)).shape.map Int.ofNat = [2] := rfl

/-- C111, violated: if a vectorized environment has several named states, each an array of elements, it is rejected. -/
theorem vectorized_violation (name : String) (s : Spec) (rest : List (String × Spec)) (values : List (String × Output)) (d : Base)
    (a : Arr Elem) (hv : values.lookup name = some (.array d a)) (he : Element s true ⟨d, a⟩) :
    npAssertAll ((name, s) :: rest) true values = .error .shape := by
  have ht : arrayType s d = true := (arrayType_iff s d).mpr (.inl he.type)
  obtain ⟨n, r, e, h2⟩ := he.shape
  have hn : a.shape.map Int.ofNat ≠ s.shape := by
    intro h
    rw [← h2] at h
    have := congrArg List.length h
    have e : a.shape = n :: r := e
    rw [e] at this
    simp at this
  rw [npAssertAll, hv]
  have : npAssert s false (.array d a) = .error .shape := by
    show checkArray s false d a.shape = _
    unfold checkArray
    rw [ht, if_neg (by simp), if_pos (by simpa using hn)]
  show (npAssert s false (.array d a) >>= fun _ => _) = _
  rw [this]
  rfl

example : Element ⟨.int, [], none, none, some 4⟩ true ⟨.int, ⟨[3], fun _ => .num 2⟩⟩ :=
  ⟨.inl rfl, ⟨3, [], rfl, rfl⟩, fun i _ => ⟨2, rfl, (by decide +kernel : (0 : Rat) ≤ 2), (by decide +kernel : (2 : Rat) < ((4 : Int) : Rat))⟩⟩

end Verif.Props.Output
