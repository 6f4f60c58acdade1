import Verif.Gym.Cover
import Verif.Gym.State

/-! # Specifications exist and allow the elements of the space -/

namespace Verif.Gym

theorem lowSpec_sound {low : List Num} {L : Limit} (h : lowSpec false none low = .ok L) {xs : List Num} (hlen : low.length = xs.length)
    (hx : (List.zipWith Num.le low xs).all id = true) : L.below xs = true := by
  cases low with
  | nil => simp [lowSpec] at h
  | cons x rest =>
    rw [lowSpec] at h
    by_cases hu : (x :: rest).all (· == x) = true
    · rw [if_pos hu] at h
      by_cases hl : lowLimit.lt x = true
      · rw [if_pos hl] at h
        simp only [Except.ok.injEq] at h
        subst h
        rw [List.all_eq_true] at hu
        rw [zipWith_all_left hlen (fun y hy => by simpa using hu y hy)] at hx
        exact hx
      · rw [if_neg hl] at h
        simp only [Except.ok.injEq] at h
        subst h
        rfl
    · rw [if_neg hu, if_neg (by simp)] at h
      split at h
      · simp only [Except.ok.injEq] at h
        subst h
        rw [Limit.below, hx, hlen]
        simp
      · simp at h

theorem highSpec_sound {high : List Num} {H : Limit} (h : highSpec false none high = .ok H) {xs : List Num} (hlen : high.length = xs.length)
    (hx : (List.zipWith Num.le xs high).all id = true) : H.above xs = true := by
  cases high with
  | nil => simp [highSpec] at h
  | cons x rest =>
    rw [highSpec] at h
    by_cases hu : (x :: rest).all (· == x) = true
    · rw [if_pos hu] at h
      by_cases hl : x.lt highLimit = true
      · rw [if_pos hl] at h
        simp only [Except.ok.injEq] at h
        subst h
        rw [List.all_eq_true] at hu
        rw [zipWith_all_right hlen.symm (fun y hy => by simpa using hu y hy)] at hx
        exact hx
      · rw [if_neg hl] at h
        simp only [Except.ok.injEq] at h
        subst h
        rfl
    · rw [if_neg hu, if_neg (by simp)] at h
      split at h
      · simp only [Except.ok.injEq] at h
        subst h
        rw [Limit.above, hx, hlen]
        simp
      · simp at h

theorem box_fits {inf : Bool} {shape : List Nat} {low high : List Num} (hw : (Space.box shape low high).wf = true) {sp : Spec}
    (h : specs inf none none (.box shape low high) = .ok sp) {a : Arr} (ha : (Space.box shape low high).mem (.array a) = true) :
    sp.fits (.one a) = true := by
  cases inf with
  | true =>
    obtain ⟨l, h1, h2⟩ := simple_ok hw rfl
    rw [h1] at h
    simp only [Except.ok.injEq] at h
    subst h
    exact (h2 a ha).1
  | false =>
    simp only [Space.wf, goodBox, Bool.and_eq_true, beq_iff_eq] at hw
    obtain ⟨⟨⟨⟨⟨h1, h2⟩, -⟩, -⟩, -⟩, -⟩ := hw
    simp only [Space.mem, Bool.and_eq_true, beq_iff_eq] at ha
    obtain ⟨⟨⟨⟨g1, g2⟩, g3⟩, g4⟩, g5⟩ := ha
    simp only [specs, boxSpec] at h
    cases hL : lowSpec false none low with
    | error e => rw [hL] at h; simp at h
    | ok L =>
      cases hH : highSpec false none high with
      | error e => rw [hL, hH] at h; simp at h
      | ok H =>
        rw [hL, hH] at h
        simp only [Except.ok.injEq] at h
        subst h
        simp only [Spec.fits, Leaf.fits]
        rw [all_congr' (fun x => okNum_float), g3, lowSpec_sound hL g2.symm g4, highSpec_sound hH (by omega) g5, g1]
        simp only [beq_self_eq_true, Bool.true_and, Bool.and_true, beq_iff_eq]
        omega

theorem simple_fits {inf : Bool} {s : Space} (hw : s.wf = true) (hs : s.simple = true) {sp : Spec}
    (h : specs inf none none s = .ok sp) {a : Arr} (ha : s.mem (.array a) = true) : sp.fits (.one a) = true := by
  by_cases hb : ∃ shape low high, s = .box shape low high
  · obtain ⟨shape, low, high, rfl⟩ := hb
    exact box_fits hw h ha
  · have hp : s.plain = true := by
      cases s with
      | box shape low high => exact absurd ⟨_, _, _, rfl⟩ hb
      | _ => simpa [Space.plain] using hs
    obtain ⟨l, h1, h2, -⟩ := plain_ok hw hp
    have : specs inf none none s = specs false none none s := by
      cases s with
      | box shape low high => exact absurd ⟨_, _, _, rfl⟩ hb
      | multiDiscrete shape nvec => cases nvec <;> rfl
      | tuple ss => simp [Space.simple] at hs
      | dict ss => simp [Space.simple] at hs
      | _ => rfl
    rw [this, h1] at h
    simp only [Except.ok.injEq] at h
    subst h
    rw [Spec.fits, h2]
    exact ha

theorem simple_named' {s : Space} (hs : s.simple = true) (a : Arr) : named s (.array a) = .one a := by
  cases s <;> simp_all [Space.simple, named]

mutual
theorem named_fits (inf : Bool) : ∀ (s : Space) (sp : Spec) (v : Value), s.wf = true → s.goodNames = true →
    specs inf none none s = .ok sp → s.mem v = true → sp.fits (named s v) = true
  | .discrete n, sp, v, hw, _, h, hv => by
    obtain ⟨a, rfl⟩ := simple_array (s := .discrete n) rfl hv
    exact simple_fits hw rfl h hv
  | .multiBinary n, sp, v, hw, _, h, hv => by
    obtain ⟨a, rfl⟩ := simple_array (s := .multiBinary n) rfl hv
    exact simple_fits hw rfl h hv
  | .box shape low high, sp, v, hw, _, h, hv => by
    obtain ⟨a, rfl⟩ := simple_array (s := .box shape low high) rfl hv
    exact simple_fits hw rfl h hv
  | .other, sp, v, hw, _, h, hv => by simp [Space.wf] at hw
  | .multiDiscrete shape nvec, sp, v, hw, _, h, hv => by
    cases hu : uniform nvec with
    | true =>
      obtain ⟨a, rfl⟩ := simple_array (s := .multiDiscrete shape nvec) hu hv
      rw [simple_named' (s := .multiDiscrete shape nvec) hu]
      exact simple_fits hw hu h hv
    | false =>
      simp only [Space.wf, Bool.and_eq_true] at hw
      have hne : nvec ≠ [] := by simpa using hw.1.1.2
      rw [specs_mdc hne hu] at h
      simp only [Except.ok.injEq] at h
      subst h
      cases v with
      | tuple vs => simp [Space.mem] at hv
      | dict vs => simp [Space.mem] at hv
      | array a =>
        simp only [Space.mem, Bool.and_eq_true, beq_iff_eq] at hv
        rw [named, hu]
        exact mdc_fits nvec a.elems 0 hv.1.2 hv.2
  | .tuple ss, sp, v, hw, hg, h, hv => by
    simp only [Space.wf] at hw
    simp only [Space.goodNames] at hg
    rw [specs_tuple hw hg] at h
    obtain ⟨items, hi, e⟩ := except_map_ok h
    rw [e]
    cases v with
    | array a => simp [Space.mem] at hv
    | dict vs => simp [Space.mem] at hv
    | tuple vs =>
      rw [Space.mem] at hv
      rw [named, Spec.fits]
      exact named_fits_tuple inf ss vs 0 items hw hg hi hv
  | .dict ss, sp, v, hw, hg, h, hv => by
    simp only [Space.wf, Bool.and_eq_true, decide_eq_true_eq] at hw
    simp only [Space.goodNames] at hg
    rw [specs_dict hw.1 hw.2 hg] at h
    obtain ⟨items, hi, e⟩ := except_map_ok h
    rw [e]
    cases v with
    | array a => simp [Space.mem] at hv
    | tuple vs => simp [Space.mem] at hv
    | dict vs =>
      rw [Space.mem] at hv
      rw [named, Spec.fits]
      exact named_fits_dict inf ss vs items hw.1 hg hi hv
theorem named_fits_tuple (inf : Bool) : ∀ (ss : List Space) (vs : List Value) (n : Nat) (items : List (Name × Leaf)), wfTuple ss = true →
    goodNamesTuple ss = true → tupleForm inf n ss = .ok items → memTuple ss vs = true → fitsItems items (namedTuple n ss vs) = true
  | [], [], n, items, _, _, h, _ => by
    simp only [tupleForm, Except.ok.injEq] at h
    rw [← h]; rfl
  | s :: ss, v :: vs, n, items, hw, hg, h, hv => by
    simp only [wfTuple, Bool.and_eq_true] at hw
    simp only [goodNamesTuple, Bool.and_eq_true] at hg
    simp only [memTuple, Bool.and_eq_true] at hv
    rw [tupleForm] at h
    cases hsp : specs inf none none s with
    | error e => rw [hsp] at h; simp at h
    | ok sp =>
      cases hr : tupleForm inf (n + 1) ss with
      | error e => rw [hsp, hr] at h; simp at h
      | ok rest =>
        rw [hsp, hr] at h
        simp only [Except.ok.injEq] at h
        rw [← h, namedTuple]
        exact fitsItems_append_intro (fits_under (named_fits inf s sp v hw.1 hg.1 hsp hv.1))
          (named_fits_tuple inf ss vs (n + 1) rest hw.2 hg.2 hr hv.2)
  | [], _ :: _, _, _, _, _, _, hv => by simp [memTuple] at hv
  | _ :: _, [], _, _, _, _, _, hv => by simp [memTuple] at hv
theorem named_fits_dict (inf : Bool) : ∀ (ss : List (Name × Space)) (vs : List (Name × Value)) (items : List (Name × Leaf)), wfDict ss = true →
    goodNamesDict ss = true → dictForm inf ss = .ok items → memDict ss vs = true → fitsItems items (namedDict ss vs) = true
  | [], [], items, _, _, h, _ => by
    simp only [dictForm, Except.ok.injEq] at h
    rw [← h]; rfl
  | (m, s) :: ss, (m', v) :: vs, items, hw, hg, h, hv => by
    simp only [wfDict, Bool.and_eq_true] at hw
    simp only [goodNamesDict, Bool.and_eq_true] at hg
    simp only [memDict, Bool.and_eq_true] at hv
    rw [dictForm] at h
    cases hsp : specs inf none none s with
    | error e => rw [hsp] at h; simp at h
    | ok sp =>
      cases hr : dictForm inf ss with
      | error e => rw [hsp, hr] at h; simp at h
      | ok rest =>
        rw [hsp, hr] at h
        simp only [Except.ok.injEq] at h
        rw [← h, namedDict]
        exact fitsItems_append_intro (fits_under (named_fits inf s sp v hw.1 hg.1.2 hsp hv.1.2))
          (named_fits_dict inf ss vs rest hw.2 hg.2 hr hv.2)
  | [], _ :: _, _, _, _, _, hv => by simp [memDict] at hv
  | _ :: _, [], _, _, _, _, hv => by simp [memDict] at hv
end

mutual
/-- The specification exists, except for infinite bounds of actions. -/
theorem specs_total (inf : Bool) : ∀ (s : Space), s.wf = true → s.goodNames = true →
    (∃ sp, specs inf none none s = .ok sp) ∨ (inf = false ∧ specs inf none none s = .error .infinite)
  | .discrete n, _, _ => .inl ⟨_, rfl⟩
  | .multiBinary n, _, _ => .inl ⟨_, rfl⟩
  | .other, hw, _ => by simp [Space.wf] at hw
  | .multiDiscrete shape nvec, hw, _ => by
    simp only [Space.wf, Bool.and_eq_true] at hw
    have hne : nvec ≠ [] := by simpa using hw.1.1.2
    cases hu : uniform nvec with
    | false => exact .inl ⟨_, specs_mdc hne hu⟩
    | true =>
      cases nvec with
      | nil => exact absurd rfl hne
      | cons x xs => exact .inl ⟨_, specs_mdc_uniform hu⟩
  | .box shape low high, hw, _ => by
    cases inf with
    | true =>
      obtain ⟨l, h1, -⟩ := simple_ok hw rfl
      exact .inl ⟨_, h1⟩
    | false =>
      simp only [Space.wf, goodBox, Bool.and_eq_true, beq_iff_eq, decide_eq_true_eq] at hw
      obtain ⟨⟨⟨⟨⟨h1, h2⟩, h3⟩, -⟩, -⟩, -⟩ := hw
      have h3' : high ≠ [] := by
        intro e
        apply h3
        rw [e] at h2
        exact List.length_eq_zero_iff.mp (h1.trans h2.symm)
      have hlow : (∃ L, lowSpec false none low = .ok L) ∨ lowSpec false none low = .error .infinite := by
        cases low with
        | nil => exact absurd rfl h3
        | cons x rest =>
          rw [lowSpec]
          split
          · split <;> exact .inl ⟨_, rfl⟩
          · rw [if_neg (by simp)]
            split
            · exact .inl ⟨_, rfl⟩
            · exact .inr rfl
      have hhigh : (∃ L, highSpec false none high = .ok L) ∨ highSpec false none high = .error .infinite := by
        cases high with
        | nil => exact absurd rfl h3'
        | cons x rest =>
          rw [highSpec]
          split
          · split <;> exact .inl ⟨_, rfl⟩
          · rw [if_neg (by simp)]
            split
            · exact .inl ⟨_, rfl⟩
            · exact .inr rfl
      rw [specs, boxSpec]
      rcases hlow with ⟨L, hL⟩ | hL
      · rw [hL]
        rcases hhigh with ⟨H, hH⟩ | hH
        · rw [hH]; exact .inl ⟨_, rfl⟩
        · rw [hH]; exact .inr ⟨rfl, rfl⟩
      · rw [hL]; exact .inr ⟨rfl, rfl⟩
  | .tuple ss, hw, hg => by
    simp only [Space.wf] at hw
    simp only [Space.goodNames] at hg
    rw [specs_tuple hw hg]
    rcases specs_total_tuple inf ss 0 hw hg with ⟨items, h⟩ | ⟨h1, h2⟩
    · rw [h]; exact .inl ⟨_, rfl⟩
    · rw [h2]; exact .inr ⟨h1, rfl⟩
  | .dict ss, hw, hg => by
    simp only [Space.wf, Bool.and_eq_true, decide_eq_true_eq] at hw
    simp only [Space.goodNames] at hg
    rw [specs_dict hw.1 hw.2 hg]
    rcases specs_total_dict inf ss hw.1 hg with ⟨items, h⟩ | ⟨h1, h2⟩
    · rw [h]; exact .inl ⟨_, rfl⟩
    · rw [h2]; exact .inr ⟨h1, rfl⟩
theorem specs_total_tuple (inf : Bool) : ∀ (ss : List Space) (n : Nat), wfTuple ss = true → goodNamesTuple ss = true →
    (∃ items, tupleForm inf n ss = .ok items) ∨ (inf = false ∧ tupleForm inf n ss = .error .infinite)
  | [], n, _, _ => .inl ⟨_, rfl⟩
  | s :: ss, n, hw, hg => by
    simp only [wfTuple, Bool.and_eq_true] at hw
    simp only [goodNamesTuple, Bool.and_eq_true] at hg
    rw [tupleForm]
    rcases specs_total inf s hw.1 hg.1 with ⟨sp, h⟩ | ⟨h1, h2⟩
    · rw [h]
      rcases specs_total_tuple inf ss (n + 1) hw.2 hg.2 with ⟨items, h'⟩ | ⟨h1, h2⟩
      · rw [h']; exact .inl ⟨_, rfl⟩
      · rw [h2]; exact .inr ⟨h1, rfl⟩
    · rw [h2]; exact .inr ⟨h1, rfl⟩
theorem specs_total_dict (inf : Bool) : ∀ (ss : List (Name × Space)), wfDict ss = true → goodNamesDict ss = true →
    (∃ items, dictForm inf ss = .ok items) ∨ (inf = false ∧ dictForm inf ss = .error .infinite)
  | [], _, _ => .inl ⟨_, rfl⟩
  | (m, s) :: ss, hw, hg => by
    simp only [wfDict, Bool.and_eq_true] at hw
    simp only [goodNamesDict, Bool.and_eq_true] at hg
    rw [dictForm]
    rcases specs_total inf s hw.1 hg.1.2 with ⟨sp, h⟩ | ⟨h1, h2⟩
    · rw [h]
      rcases specs_total_dict inf ss hw.2 hg.2 with ⟨items, h'⟩ | ⟨h1, h2⟩
      · rw [h']; exact .inl ⟨_, rfl⟩
      · rw [h2]; exact .inr ⟨h1, rfl⟩
    · rw [h2]; exact .inr ⟨h1, rfl⟩
end

end Verif.Gym
