import Verif.Layer.ShapeSpec

/-! # Lemmas about layer shapes -/

namespace Verif.Layer

theorem compatible_known {a K : List Nat} : compatible (a.map some) (K.map some) = true ↔ a = K := by
  induction a generalizing K with
  | nil => cases K <;> simp [compatible]
  | cons x a ih => cases K <;> simp [compatible, ih]

theorem construct_ok {ann : Except SError (List Int)} {c : Except SError Shape} {a : List Nat} (h : construct ann c = .ok a) :
    ∃ l s, ann = .ok l ∧ c = .ok s ∧ (∀ x ∈ l, 0 < x) ∧ a = l.map Int.toNat ∧ compatible (none :: a.map some) s = true := by
  unfold construct at h
  split at h
  · cases h
  · rename_i l
    split at h
    · cases h
    · rename_i hp
      split at h
      · cases h
      · rename_i s
        split at h
        · rename_i hc
          cases h
          refine ⟨l, s, rfl, rfl, fun x hx => ?_, rfl, ?_⟩
          · have : ¬ x ≤ 0 := fun h0 => hp (List.any_eq_true.mpr ⟨x, hx, by simpa using h0⟩)
            omega
          · rw [List.map_map]; exact hc
        · cases h

theorem toNat_ofNat (a : List Nat) : (a.map Int.ofNat).map Int.toNat = a := by
  rw [List.map_map]; exact List.map_id _

theorem construct_known {a : List Nat} (h : ∀ x ∈ a, 0 < x) : construct (.ok (a.map Int.ofNat)) (.ok (none :: a.map some)) = .ok a := by
  unfold construct
  dsimp only
  rw [if_neg, if_pos, toNat_ofNat]
  · have : (a.map Int.ofNat).map (fun x => some x.toNat) = a.map some := by rw [List.map_map]; rfl
    rw [this, compatible]
    exact compatible_known.mpr rfl
    all_goals simp
  · rw [List.any_eq_true]
    rintro ⟨x, hx, h0⟩
    obtain ⟨y, hy, rfl⟩ := List.mem_map.mp hx
    have := h y hy
    simp at h0
    omega

theorem agrees_of_known {ann : Except SError (List Int)} {c : Dim → Except SError Shape}
    (h : ∀ s, c none = .ok s → ∃ K : List Nat, ∀ b, c b = .ok (b :: K.map some)) : Agrees ann c := by
  intro a ha n
  obtain ⟨l, s, -, h2, -, -, h5⟩ := construct_ok ha
  obtain ⟨K, hK⟩ := h s h2
  rw [hK] at h2
  cases h2
  rw [compatible] at h5
  · rw [hK, compatible_known.mp h5]
  all_goals simp

/-! ### Reshape and global pooling -/

theorem size_eq (s : List Nat) : size s = volume s := by
  induction s with
  | nil => rfl
  | cons d s ih => rw [volume, ← ih]; rfl

theorem product_toNat {l : List Int} (h : ∀ x ∈ l, 0 < x) : product l = size (l.map Int.toNat) ∧ 0 < product l := by
  induction l with
  | nil => exact ⟨rfl, by decide⟩
  | cons x l ih =>
    obtain ⟨h1, h2⟩ := ih fun y hy => h y (by simp [hy])
    have hx := h x (by simp)
    refine ⟨?_, ?_⟩
    · rw [product, h1, List.map_cons, show size (x.toNat :: l.map Int.toNat) = x.toNat * size (l.map Int.toNat) from rfl, Int.natCast_mul,
        Int.toNat_of_nonneg (by omega)]
    · rw [product]; exact Int.mul_pos hx h2

theorem tfReshape_same {x target : List Nat} (h : size target = size x) (h0 : 0 < size x) (batch : Dim) :
    tfReshape x batch target = .ok (batch :: target.map some) := by
  unfold tfReshape
  rw [if_neg (by omega)]
  cases batch with
  | none => rfl
  | some n =>
    dsimp only
    rw [h, if_pos (Nat.mul_mod_left n _), Nat.mul_div_cancel _ h0]

theorem dropAxis1_last {x : List Nat} {l : Nat} (h : x.getLast? = some l) (b : Dim) : dropAxis1 (x.length + 1 - 2) (b :: x.map some) = .ok [b, some l] := by
  induction x with
  | nil => cases h
  | cons y x ih =>
    cases x with
    | nil => cases h; rfl
    | cons z x =>
      have := ih (by simpa [List.getLast?_cons_cons] using h)
      rw [show (y :: z :: x).length + 1 - 2 = (z :: x).length + 1 - 2 + 1 by simp, List.map_cons, dropAxis1]
      exact this

/-! ### Windows -/

theorem effective_eq {a : Axis} (h : a.Valid) : a.effective = a.span := by
  obtain ⟨h1, -, h3⟩ := h
  unfold Axis.effective Axis.span
  obtain ⟨w, hw⟩ : ∃ w, a.window = w + 1 := ⟨a.window - 1, by omega⟩
  obtain ⟨d, hd⟩ : ∃ d, a.dilation = d + 1 := ⟨a.dilation - 1, by omega⟩
  rw [hw, hd]
  simp only [Nat.add_sub_cancel, Int.natCast_add, Int.natCast_mul, Int.add_sub_cancel, Int.cast_ofNat_Int]
  grind

theorem ceil_spec {n s : Nat} (hn : 0 < n) (hs : 0 < s) : 0 < (n + s - 1) / s ∧ ((n + s - 1) / s - 1) * s < n ∧ n ≤ (n + s - 1) / s * s := by
  have h1 := Nat.div_add_mod (n + s - 1) s
  have h2 := Nat.mod_lt (n + s - 1) hs
  have h3 : 0 < (n + s - 1) / s := Nat.div_pos (by omega) hs
  rw [Nat.mul_comm] at h1
  refine ⟨h3, ?_, by omega⟩
  rw [Nat.sub_mul]
  omega

theorem floor_spec {n e s : Nat} (hn : e ≤ n) (hs : 0 < s) :
    0 < (n - e + s) / s ∧ ((n - e + s) / s - 1) * s + e ≤ n ∧ n < (n - e + s) / s * s + e := by
  have h1 := Nat.div_add_mod (n - e + s) s
  have h2 := Nat.mod_lt (n - e + s) hs
  have h3 : 0 < (n - e + s) / s := Nat.div_pos (by omega) hs
  rw [Nat.mul_comm] at h1
  refine ⟨h3, ?_, by omega⟩
  rw [Nat.sub_mul]
  omega

theorem windowed_valid {n : Nat} {a : Axis} (ha : a.Valid) (hn : a.span ≤ n) : windowed .valid n a = .ok ((n - a.span + a.stride) / a.stride) := by
  obtain ⟨h1, h2, h3⟩ := id ha
  unfold windowed
  rw [if_neg (by omega)]
  dsimp only [Padding.upper]
  rw [effective_eq ha, show (n : Int) - (a.span : Int) + (a.stride : Int) = ((n - a.span + a.stride : Nat) : Int) by omega,
    Int.tdiv_eq_ediv_of_nonneg (by omega), if_neg (Int.not_lt.mpr (Int.ediv_nonneg (by omega) (by omega)))]
  norm_cast

theorem windowed_same {n : Nat} {a : Axis} (ha : a.Valid) : windowed .same n a = .ok ((n + a.stride - 1) / a.stride) := by
  obtain ⟨h1, h2, h3⟩ := ha
  unfold windowed
  rw [if_neg (by omega)]
  rfl

/-- Along one axis, announced and computed lengths agree and count the windows. -/
theorem conv_axis {p : Padding} (hp : p = .same ∨ p = .valid) {n : Nat} {a : Axis} (ha : a.Valid) (hl : Long p n a) :
    ∃ len : Nat, convOutputLength p n a = .ok (len : Int) ∧ windowed p n a = .ok len ∧ Windows p n a len := by
  obtain ⟨h1, h2, h3⟩ := id ha
  rcases hp with rfl | rfl
  · refine ⟨_, ?_, windowed_same ha, ceil_spec hl.1 h2⟩
    unfold convOutputLength
    dsimp only
    rw [if_neg (by omega), show (n : Int) + (a.stride : Int) - 1 = ((n + a.stride - 1 : Nat) : Int) by omega]
    norm_cast
  · have hn := hl.2 rfl
    refine ⟨_, ?_, windowed_valid ha hn, floor_spec hn h2⟩
    unfold convOutputLength
    dsimp only
    rw [if_neg (by omega), effective_eq ha, show (n : Int) - (a.span : Int) + 1 + (a.stride : Int) - 1 = ((n - a.span + a.stride : Nat) : Int) by omega]
    norm_cast

theorem neg_ediv_neg {m s : Nat} (hs : 0 < s) : -((-(m : Int)) / s) = ((m + s - 1) / s : Nat) := by
  have h0 : (0 : Int) < s := by omega
  have h1 := Int.mul_ediv_add_emod (-(m : Int)) s
  have h2 := Int.emod_nonneg (-(m : Int)) (show (s : Int) ≠ 0 by omega)
  have h3 := Int.emod_lt_of_pos (-(m : Int)) h0
  have h4 : (((m + s - 1 : Nat) : Int)) / (s : Int) = -((-(m : Int)) / s) := by
    rw [show ((m + s - 1 : Nat) : Int) = (s - 1 - (-(m : Int)) % s) + s * (-((-(m : Int)) / s)) by
      rw [Int.mul_neg]; omega, Int.add_mul_ediv_left _ _ (by omega), Int.ediv_eq_zero_of_lt (by omega) (by omega), Int.zero_add]
  rw [← h4]
  norm_cast

theorem pool_axis {p : Padding} (hp : p = .same ∨ p = .valid) {n : Nat} {a : Axis} (ha : a.Valid) (hd : a.dilation = 1) (hl : Long p n a) :
    ∃ len : Nat, poolLength p n a = .ok (len : Int) ∧ windowed p n { a with dilation := 1 } = .ok len ∧ Windows p n a len := by
  obtain ⟨h1, h2, h3⟩ := id ha
  have e : ({ a with dilation := 1 } : Axis) = a := by cases a; cases hd; rfl
  rw [e]
  rcases hp with rfl | rfl
  · refine ⟨_, ?_, windowed_same ha, ceil_spec hl.1 h2⟩
    rw [poolLength, ceilDiv, if_neg (by omega), neg_ediv_neg h2]
  · have hn := hl.2 rfl
    refine ⟨_, ?_, windowed_valid ha hn, floor_spec hn h2⟩
    have hs : a.span = a.window := by rw [Axis.span, hd]; omega
    rw [poolLength, ceilDiv, if_neg (by omega), show (n : Int) - ((a.window : Int) - 1) = ((n - a.span + 1 : Nat) : Int) by omega, neg_ediv_neg h2]
    rw [show n - a.span + 1 + a.stride - 1 = n - a.span + a.stride by omega]

theorem perAxis_ok {f : Nat → Axis → Except SError Int} {g : Nat → Axis → Except SError Nat} {P : Nat → Axis → Nat → Prop} {p : Padding}
    {ns : List Nat} {as : List Axis} (h : ∀ n a, a ∈ as → Long p n a → ∃ len : Nat, f n a = .ok (len : Int) ∧ g n a = .ok len ∧ P n a len)
    (hl : AllLong p ns as) : ∃ lens : List Nat, perAxis f ns as = .ok (lens.map Int.ofNat) ∧ perAxis g ns as = .ok lens ∧ EachAxis P ns as lens := by
  induction ns generalizing as with
  | nil =>
    cases as with
    | nil => exact ⟨[], rfl, rfl, trivial⟩
    | cons a as => exact hl.elim
  | cons n ns ih =>
    cases as with
    | nil => exact hl.elim
    | cons a as =>
      obtain ⟨len, h1, h2, h3⟩ := h n a (by simp) hl.1
      obtain ⟨lens, h4, h5, h6⟩ := ih (fun n a ha => h n a (by simp [ha])) hl.2
      refine ⟨len :: lens, ?_, ?_, h3, h6⟩
      · rw [perAxis, h1, h4]; rfl
      · rw [perAxis, h2, h5]

end Verif.Layer
