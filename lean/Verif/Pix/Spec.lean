import Verif.Pix.Model

/-!
# What is meant by resizing, grayscale images and embeddings
-/

namespace Verif.Pix

/-- `w` is a number nearest to `a / b`. -/
def Nearest (a : Int) (b : Nat) (w : Int) : Prop := ∀ z : Int, |w * b - a| ≤ |z * b - a|

/-- `y` is the value at position `p` of the piecewise linear function with values `f 0`, …, `f (n - 1)` at the numbers `0`, …, `n - 1`, which is constant
below and above these. -/
def Interpolated {K : Type} [Field K] [LinearOrder K] (f : Nat → K) (n : Nat) (p y : K) : Prop :=
  (p ≤ 0 → y = f 0) ∧ ((n : K) - 1 ≤ p → y = f (n - 1)) ∧
    ∀ k, k + 1 < n → (k : K) ≤ p → p ≤ (k : K) + 1 → y = f k + (f (k + 1) - f k) * (p - k)

/-- The center of pixel `i` of `m` equal pixels which cover the same length as `n` pixels with centers `0`, …, `n - 1`. -/
def position {K : Type} [Field K] (n m i : Nat) : K := ((i : K) + 1 / 2) * (n : K) / (m : K) - 1 / 2

/-- Weighted sum of channels. -/
def weighted {K : Type} [Field K] (l : List K) (f : Nat → K) : K := ((List.range l.length).map (fun c => l.getD c 0 * f c)).sum

/-- All entries of an image of this shape lie in a range. -/
def Within {K : Type} [LE K] (lo hi : K) (s : Shape) (x : Nat → Nat → Nat → K) : Prop :=
  ∀ i < s.height, ∀ j < s.width, ∀ c < s.channels, lo ≤ x i j c ∧ x i j c ≤ hi

/-- Shapes of images. -/
def Shape.Positive (s : Shape) : Prop := 0 < s.height ∧ 0 < s.width ∧ 0 < s.channels

/-- Values which a state of this type can have; without number of values, any. -/
def Input.Has : Input → Int → Prop
  | .bool, x => x = 0 ∨ x = 1
  | .int none, _ => True
  | .int (some n), x => 0 ≤ x ∧ x < n
  | .float, _ => False

/-- The number of values. -/
def Input.count : Input → Option Nat
  | .bool => some 2
  | .int v => v
  | .float => none

instance {α : Type} [DecidableEq α] : DecidableEq (Except Err α)
  | .ok a, .ok b => if h : a = b then .isTrue (by rw [h]) else .isFalse (fun e => h (by injection e))
  | .error a, .error b => if h : a = b then .isTrue (by rw [h]) else .isFalse (fun e => h (by injection e))
  | .ok _, .error _ => .isFalse (fun e => by injection e)
  | .error _, .ok _ => .isFalse (fun e => by injection e)

end Verif.Pix
