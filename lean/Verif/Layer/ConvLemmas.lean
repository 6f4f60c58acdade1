import Verif.Layer.ShapeLemmas

/-! # Lemmas about the shapes of convolutions -/

namespace Verif.Layer

theorem channels_pos (t : Trans) : 0 < t.channels := by unfold Trans.channels; omega

/-- `crelu` doubles the last axis, which its announced shape does not. -/
theorem applyCrelu_fails {a : List Int} (ha : a ≠ []) (s s' : Shape) : applyCrelu a s ≠ .ok s' := by
  intro h
  unfold applyCrelu at h
  split at h
  · cases h
  · rename_i r hr
    obtain ⟨l, c, h1, h2, hpos, h4, h5⟩ := construct_ok hr
    cases h1; cases h2; subst h4
    obtain ⟨pre, d, rfl⟩ := (List.eq_nil_or_concat a).resolve_left ha
    have hd : 0 < d := hpos d (by simp)
    have e : tfCrelu (none :: (pre ++ [d]).map fun x => some x.toNat) = none :: (pre.map Int.toNat ++ [2 * d.toNat]).map some := by
      rw [List.map_append, ← List.cons_append, List.map_cons, List.map_nil, tfCrelu, List.getLast?_concat]
      dsimp only
      rw [List.dropLast_concat]
      simp [Function.comp_def]
    rw [List.concat_eq_append, e, compatible, compatible_known, List.map_append] at h5
    have := List.append_cancel_left h5
    simp only [List.map_cons, List.map_nil, List.cons.injEq, and_true] at this
    omega

theorem apply_known {t : Trans} {a : List Int} (h : a ≠ [] ∨ t.crelu = false) {lens : List Nat} {s : Shape}
    (hs : t.apply a (none :: lens.map some ++ [some t.channels]) = .ok s) (b : Dim) :
    t.apply a (b :: lens.map some ++ [some t.channels]) = .ok (b :: (if t.squeeze then lens else lens ++ [t.channels]).map some) := by
  unfold Trans.apply at hs ⊢
  dsimp only at hs ⊢
  split at hs
  · exact absurd hs (applyCrelu_fails (h.resolve_right (by simp_all)) _ _)
  · rename_i hc
    rw [if_neg hc]
    split
    · rw [List.dropLast_concat]
    · simp

theorem apply_plain {t : Trans} (h : t.crelu = false) (a : List Int) (lens : List Nat) (b : Dim) :
    t.apply a (b :: lens.map some ++ [some t.channels]) = .ok (b :: (if t.squeeze then lens else lens ++ [t.channels]).map some) := by
  unfold Trans.apply
  dsimp only
  rw [if_neg (by rw [h]; decide)]
  split
  · rw [List.dropLast_concat]
  · simp

theorem perAxis_length {β : Type} {f : Nat → Axis → Except SError β} {ns : List Nat} {as : List Axis} {l : List β} (h : perAxis f ns as = .ok l) :
    l.length = as.length := by
  induction ns generalizing as l with
  | nil =>
    cases as with
    | nil => cases h; rfl
    | cons => cases h
  | cons n ns ih =>
    cases as with
    | nil => cases h
    | cons a as =>
      rw [perAxis] at h
      split at h
      · rename_i h2
        cases h
        rw [List.length_cons, List.length_cons, ih h2]
      · cases h
      · cases h

theorem announceConv_ne {p : Padding} {as : List Axis} (has : as ≠ []) {t : Trans} {x : List Nat} {a : List Int} (h : announceConv p as t x = .ok a) :
    a ≠ [] := by
  unfold announceConv at h
  split at h
  · cases h
  · split at h
    · cases h
    · rename_i lens hl
      cases h
      have := perAxis_length hl
      have h2 : lens ≠ [] := fun e => has (List.length_eq_zero_iff.mp (by rw [← this, e]; rfl))
      split
      · exact h2
      · simp

theorem eachAxis_pos {p : Padding} {ns : List Nat} {as : List Axis} {lens : List Nat} (h : EachAxis (Windows p) ns as lens) : ∀ l ∈ lens, 0 < l := by
  induction ns generalizing as lens with
  | nil =>
    cases as <;> cases lens <;> first | exact h.elim | simp
  | cons n ns ih =>
    cases as <;> cases lens <;> try exact h.elim
    rintro l (_ | ⟨_, hl⟩)
    · have := h.1
      unfold Windows at this
      split at this
      · exact this.1
      · exact this.1
      · exact this.elim
    · exact ih h.2 l hl

/-! ### Transposed convolution -/

/-- Along one axis, convolving an output of the announced length gives the length of the input. -/
theorem deconv_axis {p : Padding} (hp : p = .same ∨ p = .valid) {n : Nat} {a : Axis} (ha : a.Valid) (hn : 0 < n) :
    ∃ len : Nat, deconvOutputLength p n a = .ok (len : Int) ∧ windowed p len a = .ok n ∧ Windows p len a n ∧ 0 < len ∧ len = fullLength p n a := by
  obtain ⟨h1, h2, h3⟩ := id ha
  have hpos : 0 < n * a.stride := Nat.mul_pos hn h2
  have hn1 : (n - 1) * a.stride = n * a.stride - a.stride := by rw [Nat.sub_mul, Nat.one_mul]
  have hge : a.stride ≤ n * a.stride := Nat.le_mul_of_pos_left _ hn
  rcases hp with rfl | rfl
  · refine ⟨n * a.stride, by unfold deconvOutputLength; simp, ?_, ⟨hn, ?_, by omega⟩, hpos, rfl⟩
    · rw [windowed_same ha, Nat.add_sub_assoc (by omega), Nat.mul_comm, Nat.mul_add_div h2, Nat.div_eq_of_lt (by omega)]
      rfl
    · omega
  · have hs : 0 < a.span := by unfold Axis.span; omega
    refine ⟨n * a.stride + (a.span - a.stride), ?_, ?_, ⟨hn, by omega, by omega⟩, by omega, by rw [fullLength]; omega⟩
    · unfold deconvOutputLength
      dsimp only
      rw [effective_eq ha]
      congr 1
      rw [Int.natCast_add, Int.natCast_mul]
      omega
    · rw [windowed_valid ha (by omega)]
      congr 1
      by_cases h : a.stride ≤ a.span
      · rw [show n * a.stride + (a.span - a.stride) - a.span + a.stride = n * a.stride by omega, Nat.mul_div_cancel _ h2]
      · rw [show n * a.stride + (a.span - a.stride) - a.span + a.stride = a.stride * n + (a.stride - a.span) by rw [Nat.mul_comm n] at *; omega,
          Nat.mul_add_div h2, Nat.div_eq_of_lt (by omega)]
        rfl

theorem deconv_axes {p : Padding} (hp : p = .same ∨ p = .valid) {ns : List Nat} {as : List Axis} (ha : ∀ a ∈ as, a.Valid) (hn : ∀ n ∈ ns, 0 < n)
    (hl : ns.length = as.length) : ∃ lens : List Nat, perAxis (deconvOutputLength p) ns as = .ok (lens.map Int.ofNat) ∧
      perAxis (windowed p) lens as = .ok ns ∧ EachAxis (Windows p) lens as ns ∧ (∀ l ∈ lens, 0 < l) ∧
      EachAxis (fun len a n => len = fullLength p n a) lens as ns := by
  induction ns generalizing as with
  | nil =>
    cases as with
    | nil => exact ⟨[], rfl, rfl, trivial, by simp, trivial⟩
    | cons => cases hl
  | cons n ns ih =>
    cases as with
    | nil => cases hl
    | cons a as =>
      obtain ⟨lens, h1, h2, h3, h4, h5⟩ := ih (as := as) (fun b hb => ha b (by simp [hb])) (fun b hb => hn b (by simp [hb])) (by simpa using hl)
      obtain ⟨len, g1, g2, g3, g4, g5⟩ := deconv_axis hp (ha a (by simp)) (hn n (by simp))
      refine ⟨len :: lens, ?_, ?_, ⟨g3, h3⟩, ?_, ⟨g5, h5⟩⟩
      · rw [perAxis, g1, h1]; rfl
      · rw [perAxis, g2, h2]
      · rintro l (_ | ⟨_, hl⟩)
        · exact g4
        · exact h4 l hl

end Verif.Layer
