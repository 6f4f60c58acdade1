import Verif.Pix.Spec
import Mathlib.Tactic.Ring
import Mathlib.Tactic.Linarith
import Mathlib.Tactic.FieldSimp
import Mathlib.Tactic.NormNum
import Mathlib.Data.Nat.Cast.Order.Field
import Mathlib.Algebra.Order.Ring.Cast

/-!
# Facts about rounding, interpolation and weighted sums
-/

namespace Verif.Pix

theorem roundDiv_cases (a : Int) (b : Nat) (hb : 0 < b) : ∃ q r : Int, a = b * q + r ∧ 0 ≤ r ∧ r < b ∧
    (roundDiv a b = q ∧ 2 * r ≤ b ∧ (2 * r = b → q % 2 = 0) ∨ roundDiv a b = q + 1 ∧ (b : Int) ≤ 2 * r ∧ (2 * r = b → (q + 1) % 2 = 0)) := by
  have hb' : (0 : Int) < b := by exact_mod_cast hb
  refine ⟨a / b, a % b, (Int.mul_ediv_add_emod a b).symm, Int.emod_nonneg _ (ne_of_gt hb'), Int.emod_lt_of_pos _ hb', ?_⟩
  unfold roundDiv
  split
  · exact .inl ⟨rfl, by omega, fun h => by omega⟩
  · split
    · exact .inr ⟨rfl, by omega, fun h => by omega⟩
    · split
      · rename_i h
        exact .inl ⟨rfl, by omega, fun _ => h⟩
      · exact .inr ⟨rfl, by omega, fun _ => by omega⟩

theorem distance (a q r z : Int) (b : Int) (ha : a = b * q + r) (h0 : 0 ≤ r) (hr : r < b) : min r (b - r) ≤ |z * b - a| := by
  have hb : 0 < b := by omega
  rcases lt_or_ge q z with h | h
  · have : (q + 1) * b ≤ z * b := mul_le_mul_of_nonneg_right (by omega) hb.le
    have h2 : b - r ≤ z * b - a := by rw [ha]; linarith
    exact le_trans (min_le_right _ _) (le_trans h2 (le_abs_self _))
  · have : z * b ≤ q * b := mul_le_mul_of_nonneg_right h hb.le
    have h2 : r ≤ -(z * b - a) := by rw [ha]; linarith
    exact le_trans (min_le_left _ _) (le_trans h2 (neg_le_abs _))

theorem roundDiv_nearest (a : Int) (b : Nat) (hb : 0 < b) : Nearest a b (roundDiv a b) := by
  obtain ⟨q, r, ha, h0, hr, h | h⟩ := roundDiv_cases a b hb
  · intro z
    have hd := distance a q r z b ha h0 hr
    rw [h.1, show q * (b : Int) - a = -r by rw [ha]; ring, abs_neg, abs_of_nonneg h0]
    rwa [min_eq_left (by omega)] at hd
  · intro z
    have hd := distance a q r z b ha h0 hr
    rw [h.1, show (q + 1) * (b : Int) - a = b - r by rw [ha]; ring, abs_of_nonneg (by omega)]
    rwa [min_eq_right (by omega)] at hd

theorem roundDiv_even (a : Int) (b : Nat) (hb : 0 < b) (h : 2 * |roundDiv a b * b - a| = b) : roundDiv a b % 2 = 0 := by
  obtain ⟨q, r, ha, h0, hr, h1 | h1⟩ := roundDiv_cases a b hb
  · rw [h1.1, show q * (b : Int) - a = -r by rw [ha]; ring, abs_neg, abs_of_nonneg h0] at h
    rw [h1.1]
    exact h1.2.2 h
  · rw [h1.1, show (q + 1) * (b : Int) - a = b - r by rw [ha]; ring, abs_of_nonneg (by omega)] at h
    rw [h1.1]
    exact h1.2.2 (by omega)

/-- The pixels around a position. -/
theorem place (n m i : Nat) (hn : 0 < n) (hi : i < m) : -1 ≤ below n m i ∧ below n m i ≤ n - 1 ∧
    (2 * i + 1) * n - m = 2 * m * below n m i + ((2 * i + 1) * n - m : Int) % (2 * m) ∧
    0 ≤ ((2 * i + 1) * n - m : Int) % (2 * m) ∧ ((2 * i + 1) * n - m : Int) % (2 * m) < 2 * m := by
  have hm : (0 : Int) < 2 * m := by omega
  have h1 := (Int.mul_ediv_add_emod ((2 * i + 1) * n - m : Int) (2 * m)).symm
  have h2 := Int.emod_nonneg ((2 * i + 1) * n - m : Int) (ne_of_gt hm)
  have h3 := Int.emod_lt_of_pos ((2 * i + 1) * n - m : Int) hm
  refine ⟨?_, ?_, h1, h2, h3⟩
  · unfold below
    rw [Int.le_ediv_iff_mul_le hm]
    have : (0 : Int) ≤ (2 * i + 1) * n := by positivity
    omega
  · have : below n m i < n := by
      unfold below
      rw [Int.ediv_lt_iff_lt_mul hm]
      have h4 : (2 * (i : Int) + 1) * n ≤ (2 * m) * n := mul_le_mul_of_nonneg_right (by omega) (by omega)
      have h5 : (n : Int) * (2 * m) = 2 * m * n := by ring
      rw [h5]
      omega
    omega

section
variable {K : Type} [Field K] [LinearOrder K] [IsStrictOrderedRing K]

theorem position_eq (n m i : Nat) (hm : 0 < m) : (position n m i : K) = (((2 * i + 1) * n - m : Int) : K) / (2 * (m : K)) := by
  have : (m : K) ≠ 0 := by exact_mod_cast (ne_of_gt hm)
  unfold position
  push_cast
  field_simp

theorem fraction_range (n m i : Nat) (hn : 0 < n) (hi : i < m) : 0 ≤ (fraction n m i : K) ∧ (fraction n m i : K) < 1 := by
  obtain ⟨_, _, _, h2, h3⟩ := place n m i hn hi
  have hm : (0 : K) < 2 * (m : K) := by
    have : (0 : K) < m := by exact_mod_cast (by omega : 0 < m)
    linarith
  unfold fraction
  constructor
  · exact div_nonneg (by exact_mod_cast h2) hm.le
  · rw [div_lt_one hm]
    exact_mod_cast h3

theorem position_split (n m i : Nat) (hn : 0 < n) (hi : i < m) : (position n m i : K) = (below n m i : K) + fraction n m i := by
  obtain ⟨_, _, h1, _, _⟩ := place n m i hn hi
  have hm : (m : K) ≠ 0 := by exact_mod_cast (by omega : m ≠ 0)
  rw [position_eq n m i (by omega), h1]
  unfold fraction
  push_cast
  field_simp

theorem mix (lo hi a b t : K) (ha : lo ≤ a ∧ a ≤ hi) (hb : lo ≤ b ∧ b ≤ hi) (h0 : 0 ≤ t) (h1 : t ≤ 1) : lo ≤ a + (b - a) * t ∧ a + (b - a) * t ≤ hi := by
  have h2 := mul_nonneg (sub_nonneg.2 ha.1) (sub_nonneg.2 h1)
  have h3 := mul_nonneg (sub_nonneg.2 hb.1) h0
  have h4 := mul_nonneg (sub_nonneg.2 ha.2) (sub_nonneg.2 h1)
  have h5 := mul_nonneg (sub_nonneg.2 hb.2) h0
  constructor <;> nlinarith

theorem resize1_within (n m i : Nat) (f : Nat → K) (lo hi : K) (hn : 0 < n) (hi' : i < m) (h : ∀ k < n, lo ≤ f k ∧ f k ≤ hi) :
    lo ≤ resize1 n m f i ∧ resize1 n m f i ≤ hi := by
  obtain ⟨h1, h2, _, _, _⟩ := place n m i hn hi'
  obtain ⟨h3, h4⟩ := fraction_range (K := K) n m i hn hi'
  refine mix _ _ _ _ _ (h _ (by omega)) (h _ ?_) h3 h4.le
  unfold above
  split <;> omega

/-- Interpolation along an axis is that of the piecewise linear function. -/
theorem resize1_interpolated (n m i : Nat) (f : Nat → K) (hn : 0 < n) (hi : i < m) : Interpolated f n (position n m i) (resize1 n m f i) := by
  obtain ⟨h1, h2, h3, h4, h5⟩ := place n m i hn hi
  obtain ⟨h6, h7⟩ := fraction_range (K := K) n m i hn hi
  have hp := position_split (K := K) n m i hn hi
  have hz : ((2 * i + 1) * n - m : Int) % (2 * m) = 0 → (fraction n m i : K) = 0 := by
    intro h
    unfold fraction
    rw [h]
    simp
  have hz' : (fraction n m i : K) = 0 → ((2 * i + 1) * n - m : Int) % (2 * m) = 0 := by
    intro h
    have hm : (2 * (m : K)) ≠ 0 := by
      have : (m : K) ≠ 0 := by exact_mod_cast (by omega : m ≠ 0)
      exact mul_ne_zero two_ne_zero this
    unfold fraction at h
    rw [div_eq_zero_iff] at h
    rcases h with h | h
    · exact_mod_cast h
    · exact absurd h hm
  rw [hp]
  refine ⟨fun h => ?_, fun h => ?_, fun k hk ha hb => ?_⟩
  · have hb : below n m i ≤ 0 := by
      have : (below n m i : K) ≤ 0 := by linarith
      exact_mod_cast this
    rcases eq_or_lt_of_le hb with h0 | h0
    · have hf : (fraction n m i : K) = 0 := by
        rw [h0] at h
        push_cast at h
        linarith
      unfold resize1
      rw [hf, h0]
      simp
    · have hb1 : below n m i = -1 := by omega
      have ha : above n m i = 0 ∨ above n m i = -1 := by unfold above; split <;> omega
      unfold resize1
      rw [show (max (below n m i) 0).toNat = 0 by omega, show (min (above n m i) (n - 1)).toNat = 0 by omega]
      ring
  · have hb : (n : Int) - 1 ≤ below n m i := by
      have h8 : ((n : Int) : K) - 1 < (below n m i : K) + 1 := by push_cast; linarith
      have h9 : (n : Int) - 1 < below n m i + 1 := by exact_mod_cast h8
      omega
    have hb1 : below n m i = n - 1 := by omega
    have ha : above n m i = n ∨ above n m i = n - 1 := by unfold above; split <;> omega
    unfold resize1
    rw [show (max (below n m i) 0).toNat = n - 1 by omega, show (min (above n m i) (n - 1)).toNat = n - 1 by omega]
    ring
  · have hbl : (k : Int) ≤ below n m i := by
      have h8 : ((k : Int) : K) < (below n m i : K) + 1 := by push_cast; linarith
      have h9 : (k : Int) < below n m i + 1 := by exact_mod_cast h8
      omega
    have hbu : below n m i ≤ (k : Int) + 1 := by
      have h8 : (below n m i : K) ≤ ((k : Int) : K) + 1 := by push_cast; linarith
      exact_mod_cast h8
    rcases eq_or_lt_of_le hbu with he | he
    · have hf : (fraction n m i : K) = 0 := by
        rw [he] at hb
        push_cast at hb
        linarith
      unfold resize1
      rw [hf, he, show (max ((k : Int) + 1) 0).toNat = k + 1 by omega]
      push_cast
      ring
    · have he : below n m i = k := by omega
      unfold resize1
      rw [he, show (max (k : Int) 0).toNat = k by omega]
      by_cases hr : ((2 * i + 1) * n - m : Int) % (2 * m) = 0
      · rw [hz hr]
        push_cast
        ring
      · have ha : above n m i = k + 1 := by
          unfold above
          rw [if_neg hr, he]
        rw [ha, show (min ((k : Int) + 1) (n - 1)).toNat = k + 1 by omega]
        push_cast
        ring

theorem resize1_same (n i : Nat) (f : Nat → K) (hi : i < n) : resize1 n n f i = f i := by
  have hn : 0 < n := by omega
  have hp : (position n n i : K) = i := by
    have : (n : K) ≠ 0 := by exact_mod_cast (by omega : n ≠ 0)
    unfold position
    field_simp
    ring
  have h := resize1_interpolated (K := K) n n i f hn hi
  rw [hp] at h
  rcases Nat.lt_or_ge (i + 1) n with h1 | h1
  · rw [h.2.2 i h1 (le_refl _) (by linarith)]
    ring
  · rw [h.2.1 (by
      have : n = i + 1 := by omega
      rw [this]
      push_cast
      linarith), show n - 1 = i by omega]

theorem dot_weighted (l : List K) (f : Nat → K) : dot l f = weighted l f := by
  induction l generalizing f with
  | nil => rfl
  | cons w l ih =>
    unfold weighted dot
    rw [ih, List.length_cons, List.range_succ_eq_map, List.map_cons, List.sum_cons, List.map_map]
    rfl

theorem dot_within (l : List K) (f : Nat → K) (lo hi : K) (hl : ∀ w ∈ l, 0 ≤ w) (hf : ∀ c < l.length, lo ≤ f c ∧ f c ≤ hi) :
    l.sum * lo ≤ dot l f ∧ dot l f ≤ l.sum * hi := by
  induction l generalizing f with
  | nil => simp [dot]
  | cons w l ih =>
    obtain ⟨h1, h2⟩ := ih (fun c => f (c + 1)) (fun x hx => hl x (List.mem_cons_of_mem _ hx)) (fun c hc => hf (c + 1) (by rw [List.length_cons]; omega))
    obtain ⟨h3, h4⟩ := hf 0 (by rw [List.length_cons]; omega)
    have hw := hl w List.mem_cons_self
    rw [List.sum_cons]
    unfold dot
    have h5 := mul_le_mul_of_nonneg_left h3 hw
    have h6 := mul_le_mul_of_nonneg_left h4 hw
    constructor <;> linarith [add_mul w l.sum lo, add_mul w l.sum hi]

end

end Verif.Pix
