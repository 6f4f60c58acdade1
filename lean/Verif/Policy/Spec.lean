import Verif.Policy.Model

/-!
# What the policy properties say

Small definitions independent of the model: the facts about the elementary functions, the action
space, and what it means for network outputs and random numbers to belong to an action.
-/

namespace Verif.Policy

variable {K : Type} [Field K] [LinearOrder K]

/-- Facts about the elementary functions.  All of them hold for the real functions
(`Verif.Policy.real_laws`). -/
structure Laws (f : Fns K) : Prop where
  exp_nonneg : ∀ x, 0 ≤ f.exp x
  exp_zero : f.exp 0 = 1
  exp_mono : ∀ x y, x ≤ y → f.exp x ≤ f.exp y
  exp_small : f.exp (-14) < eps
  log_one : f.log 1 = 0
  log_mono : ∀ x y, 0 < x → x ≤ y → f.log x ≤ f.log y
  log_le : ∀ x, 0 < x → f.log x ≤ x - 1
  log_eps : -14 ≤ f.log eps
  tanh_gt : ∀ x, -1 < f.tanh x
  tanh_lt : ∀ x, f.tanh x < 1
  atanh_tanh : ∀ x, f.atanh (f.tanh x) = x
  tanh_atanh : ∀ y, -1 < y → y < 1 → f.tanh (f.atanh y) = y
  softplus_nonneg : ∀ x, 0 ≤ f.softplus x
  sigmoid_nonneg : ∀ x, 0 ≤ f.sigmoid x
  sigmoid_le : ∀ x, f.sigmoid x ≤ 1

/-- The action belongs to the action space: right type, within the bounds, less than the number of
values, and allowed by the mask. -/
def InSpace : Space K → Action K → Prop
  | .bool, .bool _ => True
  | .int num mask, .int n => n < num ∧ ∀ m, mask = some m → m[n]? = some true
  | .float lo hi, .float x => (∀ l, lo = some l → l ≤ x) ∧ (∀ h, hi = some h → x ≤ h)
  | _, _ => False

/-- The specification is valid: at least one value, a mask of the right length with at least one
allowed value, and a lower bound below the upper bound. -/
def Space.Valid : Space K → Prop
  | .bool => True
  | .int num mask => 0 < num ∧ ∀ m, mask = some m → m.length = num ∧ true ∈ m
  | .float lo hi => ∀ l h, lo = some l → hi = some h → l < h

/-- The distribution is one for actions of this specification: a Gaussian carries the transformation
which its constructor chooses for some `bounded_transform` argument, and a beta distribution needs
two bounds. -/
def ActionDist.For : ActionDist K → Space K → Prop
  | .bernoulli, .bool => True
  | .categorical _, .int _ _ => True
  | .gaussian t lo hi, .float lo' hi' =>
    lo' = lo ∧ hi' = hi ∧ ∃ given, gaussianTransform given lo hi = .ok t
  | .beta lo hi, .float lo' hi' => lo' = some lo ∧ hi' = some hi
  | _, _ => False

/-- The network outputs and the mask have the sizes of the specification. -/
def Outputs.For (x : Outputs K) : Space K → Prop
  | .int num mask => x.values.length = num ∧ x.mask = mask
  | _ => True

/-- Values which the random number generators can give: numbers in `[eps, 1 - eps)` for the Gumbel
noise, positive numbers for the gamma distributions. -/
def Noise.For (z : Noise K) : ActionDist K → Outputs K → Prop
  | .categorical _, x =>
    z.values.length = x.values.length ∧ ∀ u ∈ z.values, eps ≤ u ∧ u < 1 - eps
  | .beta _ _, _ => 0 < z.first ∧ 0 < z.second
  | _, _ => True

/-- Conditions of `act_in_space_partial` which the property does not have: a masked integer action
has at most a million values, and its network outputs are above `-10^30`. -/
def Component.Moderate (c : Component K) : Prop :=
  match c.dist with
  | .categorical _ => c.outputs.mask.isSome →
    c.outputs.values.length ≤ 1000000 ∧ ∀ v ∈ c.outputs.values, -(10 ^ 30) ≤ v
  | _ => True

end Verif.Policy
