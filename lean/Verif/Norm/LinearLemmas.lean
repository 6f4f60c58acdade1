import Verif.Norm.Spec
import Mathlib.Tactic.Ring
import Mathlib.Tactic.Linarith
import Mathlib.Tactic.FieldSimp

/-!
# Facts about linear normalization and clipping
-/

namespace Verif.Norm

variable {K : Type} [Field K] [LinearOrder K]

section

omit [Field K]

theorem lt_iff (a b : Ext K) : a.lt b = true ↔ Strict a b := by
  cases a <;> cases b <;> simp [Ext.lt, Strict]

omit [LinearOrder K]

theorem all_iff {n : Nat} {f : Ext K → Ext K → Bool} {a b : Bnd K} :
    Bnd.all n f a b = true ↔ ∀ i, i < n → f (a.entry i) (b.entry i) = true := by
  unfold Bnd.all
  rw [List.all_eq_true]
  constructor
  · intro h i hi; exact h i (List.mem_range.2 hi)
  · intro h i hi; exact h i (List.mem_range.1 hi)

theorem boundAt_entry {n i : Nat} {m : Bnd K} (h : Complete n m) (hi : i < n) : BoundAt m i (m.entry i) := by
  cases m with
  | one b => exact .one
  | each l =>
    have hl : l.length = n := h
    apply BoundAt.each
    show l[i]? = some (l.getD i .bot)
    rw [List.getD_eq_getElem?_getD, List.getElem?_eq_getElem (by omega)]
    rfl

theorem entry_of_boundAt {i : Nat} {m : Bnd K} {b : Ext K} (h : BoundAt m i b) : m.entry i = b := by
  cases h with
  | one => rfl
  | each h => show List.getD _ i _ = b; rw [List.getD_eq_getElem?_getD, h]; rfl

theorem zip_complete {n : Nat} {f : Ext K → Ext K → Ext K} {a b : Bnd K} (ha : Complete n a) (hb : Complete n b) :
    Complete n (Bnd.zip f a b) := by
  cases a <;> cases b
  · trivial
  · exact (List.length_map _).trans hb
  · exact (List.length_map _).trans ha
  · show (List.zipWith _ _ _).length = n
    rw [List.length_zipWith, show List.length _ = n from ha, show List.length _ = n from hb, Nat.min_self]

theorem zip_entry {n i : Nat} {f : Ext K → Ext K → Ext K} {a b : Bnd K} (ha : Complete n a) (hb : Complete n b) (hi : i < n) :
    (Bnd.zip f a b).entry i = f (a.entry i) (b.entry i) := by
  cases a with
  | one x =>
    cases b with
    | one y => rfl
    | each m =>
      have hm : m.length = n := hb
      simp only [Bnd.zip, Bnd.entry, List.getD_eq_getElem?_getD, List.getElem?_map]
      rw [List.getElem?_eq_getElem (by omega)]
      rfl
  | each l =>
    have hl : l.length = n := ha
    cases b with
    | one y =>
      simp only [Bnd.zip, Bnd.entry, List.getD_eq_getElem?_getD, List.getElem?_map]
      rw [List.getElem?_eq_getElem (by omega)]
      rfl
    | each m =>
      have hm : m.length = n := hb
      simp only [Bnd.zip, Bnd.entry, List.getD_eq_getElem?_getD, List.getElem?_zipWith]
      rw [List.getElem?_eq_getElem (by omega), List.getElem?_eq_getElem (by omega)]
      rfl

theorem zip_self {f : Ext K → Ext K → Ext K} (hf : ∀ x, f x x = x) (m : Bnd K) : Bnd.zip f m m = m := by
  cases m with
  | one x => simp only [Bnd.zip, hf]
  | each l =>
    simp only [Bnd.zip]
    congr 1
    induction l with
    | nil => rfl
    | cons x l ih => rw [List.zipWith_cons_cons, ih, hf]

end

omit [Field K] in
theorem lt_irrefl' (x : Ext K) : x.lt x = false := by
  cases x <;> simp [Ext.lt]

omit [Field K] in
theorem min_self' (x : Ext K) : Ext.min x x = x := by unfold Ext.min; rw [ite_self]

omit [Field K] in
theorem max_self' (x : Ext K) : Ext.max x x = x := by unfold Ext.max; rw [ite_self]

omit [Field K] in
theorem unifyMin_self (m : Bnd K) : unifyMin (some m) (some m) = some m := by
  show some (if _ then _ else _) = _
  rw [zip_self min_self', zip_self max_self', ite_self]

omit [Field K] in
theorem unifyMax_self (m : Bnd K) : unifyMax (some m) (some m) = some m := by
  show some (Bnd.zip Ext.max m m) = _
  rw [zip_self max_self']

/-! ## Setting bounds -/

theorem makeRange_both (eps : K) (n : Nat) (mn mx : Bnd K) :
    makeRange eps n (some mn) (some mx) =
      if Bnd.all n (fun x y => !y.lt (x.add eps)) mn mx then .ok ⟨n, some mn, some mx⟩ else .error .value := rfl

theorem bind_ok {α β : Type} {x : Except Err α} {f : α → Except Err β} {b : β} (h : (x >>= f) = .ok b) :
    ∃ a, x = .ok a ∧ f a = .ok b := by
  cases x with
  | error e => cases h
  | ok a => exact ⟨a, rfl, h⟩

theorem setMin_ok {eps : K} {r r' : Range K} {b : Bnd K} (h : setMin eps r b = .ok r') : r' = { r with min := some b } := by
  unfold setMin at h
  split at h
  · cases h; rfl
  · split at h
    · cases h; rfl
    · cases h

theorem setMax_ok {eps : K} {r r' : Range K} {b : Bnd K} (h : setMax eps r b = .ok r') : r' = { r with max := some b } := by
  unfold setMax at h
  split at h
  · cases h; rfl
  · split at h
    · cases h; rfl
    · cases h

theorem announced_ok {eps : K} {l : Linear K} {r : Range K} (h : announced eps l = .ok r) :
    r = ⟨l.input.size, some (keepInf l l.min (-2)), some (keepInf l l.max 2)⟩ := by
  obtain ⟨r1, h1, h2⟩ := bind_ok h
  have e1 := setMin_ok h1
  subst e1
  exact setMax_ok h2

theorem makeRange_size {eps : K} {n : Nat} {a b : Option (Bnd K)} {r : Range K} (h : makeRange eps n a b = .ok r) : r.size = n := by
  cases a with
  | none =>
    cases b with
    | none => cases h; rfl
    | some m => rw [setMax_ok (eps := eps) (r := ⟨n, none, none⟩) h]
  | some m =>
    obtain ⟨r1, h1, h2⟩ := bind_ok (x := setMin eps ⟨n, none, none⟩ m) h
    have e1 : r1.size = n := by rw [setMin_ok h1]
    cases b with
    | none => cases h2; exact e1
    | some m => rw [setMax_ok h2]; exact e1

theorem unify_size {eps : K} {a b r : Range K} (h : unify eps a b = .ok r) : r.size = a.size := by
  unfold unify at h
  split at h
  · split at h
    · exact makeRange_size h
    · cases h
  · exact makeRange_size h

theorem linear_ok {eps : K} {g1 g2 : Option (Bnd K)} {input : Range K} {l : Linear K} (h : linear eps g1 g2 input = .ok l) :
    orInput g1 input.min = .ok l.min ∧ orInput g2 input.max = .ok l.max ∧
      (∀ i, i < input.size → Strict (l.min.entry i) (l.max.entry i)) ∧ l.input.size = input.size := by
  obtain ⟨mn, h1, h⟩ := bind_ok h
  obtain ⟨mx, h2, h⟩ := bind_ok h
  split at h
  case isFalse => cases h
  case isTrue hall =>
    obtain ⟨own, h3, h⟩ := bind_ok h
    obtain ⟨spec, h4, h⟩ := bind_ok h
    cases h
    refine ⟨h1, h2, fun i hi => (lt_iff _ _).1 (all_iff.1 hall i hi), ?_⟩
    rw [unify_size h4, makeRange_size h3]

/-! ## Accepted bounds -/

section

variable [IsStrictOrderedRing K]

theorem apart_strict {eps : K} (he : 0 < eps) {a b : Ext K} (h : Apart eps a b) : Strict a b := by
  cases a <;> cases b <;> simp only [Apart, Strict] at h ⊢
  linarith

omit [IsStrictOrderedRing K] in
theorem apart_check {eps : K} {a b : Ext K} (h : Apart eps a b) : (!b.lt (a.add eps)) = true := by
  cases a <;> cases b <;> simp only [Apart, Ext.lt, Ext.add, Bool.not_eq_true', decide_eq_false_iff_not, Bool.not_false] at h ⊢
  exact not_lt.2 h

theorem apart_order {eps : K} (he : 0 < eps) {a b : Ext K} (h : Apart eps a b) : (!b.lt a) = true := by
  cases a <;> cases b <;> simp only [Apart, Ext.lt, Bool.not_eq_true', decide_eq_false_iff_not, Bool.not_false] at h ⊢
  exact not_lt.2 (by linarith)

/-- If the bounds are given, those of the input, or both and the same. -/
theorem linear_accepts {eps : K} (he : 0 < eps) {g1 g2 : Option (Bnd K)} {input : Range K} {mn mx : Bnd K}
    (h1 : Source g1 input.min mn) (h2 : Source g2 input.max mx) (ha : ∀ i, i < input.size → Apart eps (mn.entry i) (mx.entry i)) :
    linear eps g1 g2 input = .ok ⟨mn, mx, ⟨input.size, some mn, some mx⟩⟩ := by
  have o1 : orInput g1 input.min = .ok mn := by
    generalize input.min = im at h1
    cases h1 <;> rfl
  have o2 : orInput g2 input.max = .ok mx := by
    generalize input.max = im at h2
    cases h2 <;> rfl
  have u1 : unifyMin (some mn) input.min = some mn := by
    generalize input.min = im at h1
    cases h1
    · rfl
    · exact unifyMin_self mn
    · exact unifyMin_self mn
  have u2 : unifyMax (some mx) input.max = some mx := by
    generalize input.max = im at h2
    cases h2
    · rfl
    · exact unifyMax_self mx
    · exact unifyMax_self mx
  have c1 : Bnd.all input.size (fun x y => x.lt y) mn mx = true := all_iff.2 (fun i hi => (lt_iff _ _).2 (apart_strict he (ha i hi)))
  have c2 : Bnd.all input.size (fun x y => !y.lt (x.add eps)) mn mx = true := all_iff.2 (fun i hi => apart_check (ha i hi))
  have c3 : Bnd.all input.size (fun x y => !y.lt x) mn mx = true := all_iff.2 (fun i hi => apart_order he (ha i hi))
  have hu : unify eps ⟨input.size, some mn, some mx⟩ input = .ok ⟨input.size, some mn, some mx⟩ := by
    unfold unify
    dsimp only
    rw [u1, u2]
    dsimp only
    rw [if_pos c3, makeRange_both, if_pos c2]
  unfold linear
  rw [o1, o2]
  show (if Bnd.all input.size (fun x y => x.lt y) mn mx then _ else _) = _
  rw [if_pos c1, makeRange_both, if_pos c2]
  show (unify eps ⟨input.size, some mn, some mx⟩ input >>= _) = _
  rw [hu]
  rfl

end

/-! ## Announced bounds -/

omit [LinearOrder K] in
theorem keepInf_complete {l : Linear K} {own : Bnd K} {v : K} (h1 : Complete l.input.size l.min) (h2 : Complete l.input.size l.max)
    (h3 : Complete l.input.size own) : Complete l.input.size (keepInf l own v) := by
  unfold keepInf
  split
  · trivial
  · exact zip_complete h3 (zip_complete h1 h2)

omit [LinearOrder K] in
theorem keepInf_entry {l : Linear K} {own : Bnd K} {v : K} {i : Nat} (h1 : Complete l.input.size l.min) (h2 : Complete l.input.size l.max)
    (h3 : Complete l.input.size own) (hi : i < l.input.size) :
    (keepInf l own v).entry i = if (l.min.entry i).isInf || (l.max.entry i).isInf then own.entry i else .fin v := by
  unfold keepInf
  split
  case isTrue h =>
    have hh := all_iff.1 h i hi
    rw [Bool.and_eq_true_iff, Bool.not_eq_true', Bool.not_eq_true'] at hh
    rw [hh.1, hh.2]
    rfl
  case isFalse =>
    rw [zip_entry h3 (zip_complete h1 h2) hi, zip_entry h1 h2 hi]
    cases e : (l.min.entry i).isInf with
    | true => rw [if_pos rfl, if_pos e]; rfl
    | false =>
      show (if (if false = true then l.min.entry i else l.max.entry i).isInf = true then own.entry i else Ext.fin v) = _
      rw [if_neg (show ¬ (false = true) by decide), Bool.false_or]

end Verif.Norm
