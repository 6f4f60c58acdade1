import Verif.Pix.Lemmas
import Mathlib.Algebra.Order.Field.Rat

/-!
# C139: the image layer

Resized images have the announced size, keep the aspect ratio, are interpolated, and stay in the announced range; grayscale images are weighted sums.
-/

namespace Verif.Props.Image

open Verif.Pix

variable {K : Type} [Field K] [LinearOrder K] [IsStrictOrderedRing K]

/-- Height and width as requested; one channel if grayscale. -/
theorem announced (g : Gray K) (s : Shape) (h w : Nat) (hh : 0 < h) (hw : 0 < w) :
    announce (some h) (some w) g s = .ok ⟨h, w, if g = .off then s.channels else 1⟩ ∧
      announce none none g s = .ok ⟨s.height, s.width, if g = .off then s.channels else 1⟩ := by
  have hg : outChannels g s.channels = if g = .off then s.channels else 1 := by cases g <;> simp [outChannels]
  unfold announce target
  simp only
  rw [if_pos ⟨by omega, by omega⟩, hg]
  exact ⟨rfl, rfl⟩

example : announce (some 2) (some 3) (.on : Gray ℚ) ⟨9, 9, 3⟩ = .ok ⟨2, 3, 1⟩ := by decide +kernel

/-- With the height only, the width is the number nearest to the one with the same aspect ratio, the even one of two; rejected if it is zero. -/
theorem height_only (g : Gray K) (s : Shape) (hs : s.Positive) (h : Nat) (hh : 0 < h) :
    ∃ w : Int, Nearest (h * s.width) s.height w ∧ (2 * |w * s.height - h * s.width| = s.height → w % 2 = 0) ∧
      announce (some h) none g s = if 0 < w then .ok ⟨h, w.toNat, if g = .off then s.channels else 1⟩ else .error .tensorforce := by
  have hg : outChannels g s.channels = if g = .off then s.channels else 1 := by cases g <;> simp [outChannels]
  refine ⟨roundDiv (h * s.width) s.height, roundDiv_nearest _ _ hs.1, roundDiv_even _ _ hs.1, ?_⟩
  unfold announce target
  simp only
  have h0 : (0 : Int) < h := by omega
  rw [hg]
  simp only [h0, true_and, Int.toNat_natCast]

example : announce (some 5) none (.off : Gray ℚ) ⟨20, 30, 3⟩ = .ok ⟨5, 8, 3⟩ := by decide +kernel

/-- With the width only, likewise. -/
theorem width_only (g : Gray K) (s : Shape) (hs : s.Positive) (w : Nat) (hw : 0 < w) :
    ∃ h : Int, Nearest (w * s.height) s.width h ∧ (2 * |h * s.width - w * s.height| = s.width → h % 2 = 0) ∧
      announce none (some w) g s = if 0 < h then .ok ⟨h.toNat, w, if g = .off then s.channels else 1⟩ else .error .tensorforce := by
  have hg : outChannels g s.channels = if g = .off then s.channels else 1 := by cases g <;> simp [outChannels]
  refine ⟨roundDiv (w * s.height) s.width, roundDiv_nearest _ _ hs.2.1, roundDiv_even _ _ hs.2.1, ?_⟩
  unfold announce target
  simp only
  have h0 : (0 : Int) < w := by omega
  rw [hg]
  simp only [h0, and_true, Int.toNat_natCast]

example : announce none (some 5) (.off : Gray ℚ) ⟨30, 20, 3⟩ = .ok ⟨8, 5, 3⟩ := by decide +kernel

/-- Heights and widths which are not positive are rejected. -/
theorem rejected (g : Gray K) (s : Shape) (h w : Int) (hh : h ≤ 0 ∨ w ≤ 0) : announce (some h) (some w) g s = .error .tensorforce := by
  unfold announce target
  simp only
  rw [if_neg (by omega)]

example : announce (some 0) (some 3) (.off : Gray ℚ) ⟨9, 9, 3⟩ = .error .tensorforce := by decide +kernel

/-- Which images are accepted by an accepted layer: all if there is no grayscale, three channels for the default weights, and one channel for each of given
weights; and images as announced are returned. Missing for the property: other images are only rejected when the layer is applied, see `channels_violation`;
and see `broadcast_violation`. -/
theorem returned_partial (height width : Option Int) (g : Gray K) (s r : Shape) (x : Nat → Nat → Nat → K) (ha : announce height width g s = .ok r)
    (hg : match g with | .off => True | .on => s.channels = 3 | .weights l => l.length = s.channels) : ∃ y, apply height width g s x = .ok (r, y) := by
  have key : ∀ x', ∃ y, grayscale g s.channels x' = .ok y := by
    intro x'
    cases g with
    | off => exact ⟨_, rfl⟩
    | on => exact ⟨_, if_pos hg⟩
    | weights l => exact ⟨_, if_pos hg⟩
  unfold apply
  rw [ha]
  simp only
  unfold announce at ha
  cases ht : target height width s with
  | none =>
    rw [ht] at ha
    simp only at ha ⊢
    obtain ⟨y, hy⟩ := key x
    rw [hy]
    cases ha
    exact ⟨y, rfl⟩
  | some p =>
    obtain ⟨h, w⟩ := p
    rw [ht] at ha
    simp only at ha ⊢
    obtain ⟨y, hy⟩ := key (resize s h.toNat w.toNat x)
    rw [hy]
    split at ha
    · cases ha
      exact ⟨y, rfl⟩
    · cases ha

example : (apply (some 2) none (.on : Gray ℚ) ⟨4, 4, 3⟩ (fun _ _ _ => 1)).toBool = true := by decide +kernel

/-- Without height and width pixels are not changed. -/
theorem unchanged (s : Shape) (x : Nat → Nat → Nat → K) : apply none none .off s x = .ok (s, x) := rfl

example : (apply none none (.off : Gray ℚ) ⟨4, 4, 3⟩ (fun _ _ _ => 1)).toBool = true := by decide +kernel

/-- Resizing is bilinear: interpolation between columns and then between rows, at the centers of the pixels. -/
theorem interpolated (height width : Option Int) (s r : Shape) (hs : s.Positive) (x y : Nat → Nat → Nat → K)
    (h : apply height width .off s x = .ok (r, y)) (i j c : Nat) (hi : i < r.height) (hj : j < r.width) :
    ∃ row : Nat → K, (∀ a < s.height, Interpolated (fun b => x a b c) s.width (position s.width r.width j) (row a)) ∧
      Interpolated row s.height (position s.height r.height i) (y i j c) := by
  have key : ∀ (h w : Nat), i < h → j < w → ∃ row : Nat → K, (∀ a < s.height, Interpolated (fun b => x a b c) s.width (position s.width w j) (row a)) ∧
      Interpolated row s.height (position s.height h i) (resize s h w x i j c) := by
    intro h w hi hj
    refine ⟨fun a => resize1 s.width w (fun b => x a b c) j, fun a _ => resize1_interpolated _ _ _ _ hs.2.1 hj, ?_⟩
    have h1 := resize1_interpolated s.height h i (fun a => resize1 s.width w (fun b => x a b c) j) hs.1 hi
    unfold resize
    split
    · rename_i he
      obtain ⟨rfl, rfl⟩ := he
      rw [resize1_same _ _ _ hi, resize1_same _ _ _ hj] at h1
      exact h1
    · exact h1
  unfold apply at h
  cases ha : announce height width (.off : Gray K) s with
  | error e => rw [ha] at h; cases h
  | ok r' =>
    rw [ha] at h
    simp only at h
    cases ht : target height width s with
    | none =>
      rw [ht] at h
      cases h
      have := key s.height s.width hi hj
      unfold resize at this
      rwa [if_pos ⟨rfl, rfl⟩] at this
    | some p =>
      obtain ⟨h', w'⟩ := p
      rw [ht] at h
      cases h
      exact key _ _ hi hj

example : (apply (some 1) (some 2) (.off : Gray ℚ) ⟨1, 4, 1⟩ (fun _ j _ => j)).toOption.map (fun p => (p.2 0 0 0, p.2 0 1 0)) = some (1 / 2, 5 / 2) := by decide +kernel

/-- Resized images stay in the range of the image. -/
theorem within (height width : Option Int) (s r : Shape) (hs : s.Positive) (x y : Nat → Nat → Nat → K) (lo hi : K)
    (h : apply height width .off s x = .ok (r, y)) (hx : Within lo hi s x) : Within lo hi r y := by
  have key : ∀ (h w : Nat), Within lo hi ⟨h, w, s.channels⟩ (resize s h w x) := by
    intro h w i hi' j hj c hc
    unfold resize
    split
    · rename_i he
      exact hx i (by rw [← he.1]; exact hi') j (by rw [← he.2]; exact hj) c hc
    · exact resize1_within _ _ _ _ _ _ hs.1 hi' (fun a ha => resize1_within _ _ _ _ _ _ hs.2.1 hj (fun b hb => hx a ha b hb c hc))
  unfold apply at h
  cases ha : announce height width (.off : Gray K) s with
  | error e => rw [ha] at h; cases h
  | ok r' =>
    rw [ha] at h
    simp only at h
    cases ht : target height width s with
    | none =>
      rw [ht] at h
      cases h
      exact hx
    | some p =>
      obtain ⟨h', w'⟩ := p
      rw [ht] at h
      cases h
      exact key _ _

example : Within (0 : ℚ) 1 ⟨2, 2, 1⟩ (fun _ _ _ => 1 / 2) := fun _ _ _ _ _ _ => by constructor <;> norm_num

/-- Grayscale with and without resizing: a weighted sum of the channels of the resized image. -/
theorem weighted_sum (height width : Option Int) (l : List K) (s r : Shape) (x y z : Nat → Nat → Nat → K) (hl : l.length = s.channels)
    (h : apply height width (.weights l) s x = .ok (r, y)) (ho : ∃ r', apply height width .off s x = .ok (r', z)) (i j : Nat) :
    y i j 0 = weighted l (z i j) := by
  obtain ⟨r', ho⟩ := ho
  unfold apply at h ho
  cases ha : announce height width (.weights l) s with
  | error e => rw [ha] at h; cases h
  | ok a =>
    cases hb : announce height width (.off : Gray K) s with
    | error e => rw [hb] at ho; cases ho
    | ok b =>
      rw [ha] at h
      rw [hb] at ho
      simp only [grayscale, if_pos hl] at h ho
      cases h
      cases ho
      exact dot_weighted _ _

example : (apply none none (.weights [1, 2] : Gray ℚ) ⟨1, 1, 2⟩ (fun _ _ c => c + 1)).toOption.map (fun p => p.2 0 0 0) = some 5 := by decide +kernel

/-- The default weights. -/
theorem default_sum (height width : Option Int) (s r : Shape) (x y z : Nat → Nat → Nat → K)
    (h : apply height width .on s x = .ok (r, y)) (ho : ∃ r', apply height width .off s x = .ok (r', z)) (i j : Nat) :
    y i j 0 = 2989 / 10000 * z i j 0 + 587 / 1000 * z i j 1 + 114 / 1000 * z i j 2 := by
  obtain ⟨r', ho⟩ := ho
  unfold apply at h ho
  cases ha : announce height width (.on : Gray K) s with
  | error e => rw [ha] at h; cases h
  | ok a =>
    cases hb : announce height width (.off : Gray K) s with
    | error e => rw [hb] at ho; cases ho
    | ok b =>
      rw [ha] at h
      rw [hb] at ho
      simp only [grayscale] at h ho
      split at h
      · cases h
      · rename_i hg
        split at hg
        · cases hg
          cases h
          cases ho
          simp only [dot, rgb]
          ring
        · cases hg

example : (apply none none (.on : Gray ℚ) ⟨1, 1, 3⟩ (fun _ _ _ => 1)).toOption.map (fun p => p.2 0 0 0) = some (9999 / 10000) := by decide +kernel

/-- Weights which are not negative keep the range if their sum is one, and ranges with zero if it is at most one. Missing for the property: other weights, for
which the layer announces the range of its input nevertheless, see `weights_violation` and `gray_violation`. -/
theorem gray_within_partial (height width : Option Int) (l : List K) (s r : Shape) (hs : s.Positive) (x y : Nat → Nat → Nat → K) (lo hi : K)
    (hl : l.length = s.channels) (hw : ∀ w ∈ l, 0 ≤ w) (hc : l.sum = 1 ∨ l.sum ≤ 1 ∧ lo ≤ 0 ∧ 0 ≤ hi)
    (h : apply height width (.weights l) s x = .ok (r, y)) (hx : Within lo hi s x) : Within lo hi r y := by
  have hoff : ∃ r' z, apply height width (.off : Gray K) s x = .ok (r', z) ∧ r'.height = r.height ∧ r'.width = r.width ∧ r'.channels = s.channels ∧ r.channels = 1 := by
    unfold apply announce at h ⊢
    cases ht : target height width s with
    | none =>
      rw [ht] at h
      simp only [grayscale, if_pos hl] at h ⊢
      cases h
      exact ⟨_, _, rfl, rfl, rfl, rfl, rfl⟩
    | some p =>
      obtain ⟨h', w'⟩ := p
      rw [ht] at h
      simp only [grayscale, if_pos hl] at h ⊢
      by_cases hp : 0 < h' ∧ 0 < w'
      · rw [if_pos hp] at h ⊢
        cases h
        exact ⟨_, _, rfl, rfl, rfl, rfl, rfl⟩
      · rw [if_neg hp] at h
        cases h
  obtain ⟨r', z, hz, e1, e2, e3, e4⟩ := hoff
  have hzw := within height width s r' hs x z lo hi hz hx
  intro i hi' j hj c hc'
  have hc0 : c = 0 := by omega
  subst hc0
  rw [weighted_sum height width l s r x y z hl h ⟨r', hz⟩ i j, ← dot_weighted]
  obtain ⟨h1, h2⟩ := dot_within l (z i j) lo hi hw (fun c hc => hzw i (by omega) j (by omega) c (by omega))
  rcases hc with hc | ⟨hc, hlo, hhi⟩
  · rw [hc, one_mul] at h1 h2
    exact ⟨h1, h2⟩
  · exact ⟨by nlinarith, by nlinarith⟩

example : ([1 / 2, 1 / 2] : List ℚ).sum = 1 ∧ ∀ w ∈ ([1 / 2, 1 / 2] : List ℚ), 0 ≤ w := by decide +kernel

/-- A small height of a narrow image is rejected since the width is rounded to zero. -/
theorem vanishing_violation : announce (some 1) none (.off : Gray ℚ) ⟨100, 10, 3⟩ = .error .tensorforce := by decide +kernel

/-- A grayscale layer for images with other than three channels is accepted, and fails when it is applied. -/
theorem channels_violation (x : Nat → Nat → Nat → ℚ) : announce none none (.on : Gray ℚ) ⟨8, 8, 1⟩ = .ok ⟨8, 8, 1⟩ ∧
    (apply none none .on ⟨8, 8, 1⟩ x).toOption.isNone = true := ⟨by decide +kernel, rfl⟩

/-- One weight for several channels, or several weights for one channel, are accepted. -/
theorem broadcast_violation : (apply none none (.weights [1 / 2] : Gray ℚ) ⟨1, 1, 3⟩ (fun _ _ _ => 1)).toOption.map (fun p => p.2 0 0 0) = some (3 / 2) ∧
    (apply none none (.weights [1, 2, 3] : Gray ℚ) ⟨1, 1, 1⟩ (fun _ _ _ => 1)).toOption.map (fun p => p.2 0 0 0) = some 6 := by decide +kernel

/-- The default weights do not sum to one: images with values from one half to one do not stay in this range. -/
theorem gray_violation : (apply none none (.on : Gray ℚ) ⟨1, 1, 3⟩ (fun _ _ _ => 1 / 2)).toOption.map (fun p => decide (p.2 0 0 0 < 1 / 2)) = some true := by
  decide +kernel

/-- Weights with a larger sum leave the range. -/
theorem weights_violation : (apply none none (.weights [1, 1, 1] : Gray ℚ) ⟨1, 1, 3⟩ (fun _ _ _ => 1)).toOption.map (fun p => decide (1 < p.2 0 0 0)) = some true := by
  decide +kernel

end Verif.Props.Image
