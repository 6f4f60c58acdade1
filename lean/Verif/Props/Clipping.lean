import Verif.Norm.NormLemmas
import Verif.Norm.LinearLemmas

/-!
# C122: clipping, and the range announced by layers which inherit that of their input
-/

namespace Verif.Props.Clipping

open Verif.Norm

variable {K : Type} [Field K] [LinearOrder K]

/-- Clipping works if there is a bound and if two bounds are in order. -/
theorem clip_defined (c : Clip K) (x : K) :
    (∃ y, clip c x = some y) ↔ (c.lower ≠ none ∨ c.upper ≠ none) ∧ ∀ l u, c.lower = some l → c.upper = some u → l ≤ u := by
  obtain ⟨lo, up⟩ := c
  cases lo with
  | none =>
    cases up with
    | none => exact ⟨fun ⟨y, h⟩ => (by cases h), fun ⟨h, _⟩ => (by rcases h with h | h <;> exact absurd rfl h)⟩
    | some u => exact ⟨fun _ => ⟨.inr nofun, fun l u h => by cases h⟩, fun _ => ⟨_, rfl⟩⟩
  | some l =>
    cases up with
    | none => exact ⟨fun _ => ⟨.inl nofun, fun l u _ h => by cases h⟩, fun _ => ⟨_, rfl⟩⟩
    | some u =>
      by_cases h : l ≤ u
      · exact ⟨fun _ => ⟨.inl nofun, fun l' u' h1 h2 => by cases h1; cases h2; exact h⟩, fun _ => ⟨_, if_pos h⟩⟩
      · refine ⟨fun ⟨y, hy⟩ => ?_, fun ⟨_, h'⟩ => absurd (h' l u rfl rfl) h⟩
        have hy : (if l ≤ u then some (max (min x u) l) else none) = some y := hy
        rw [if_neg h] at hy
        cases hy

/-- The result is within the bounds; values within are kept, values below become the lower and values above the upper bound. -/
theorem clip_value (c : Clip K) (x y : K) (h : clip c x = some y) :
    (∀ l, c.lower = some l → l ≤ y) ∧ (∀ u, c.upper = some u → y ≤ u) ∧
    ((∀ l, c.lower = some l → l ≤ x) → (∀ u, c.upper = some u → x ≤ u) → y = x) ∧
    (∀ l, c.lower = some l → x ≤ l → y = l) ∧ (∀ u, c.upper = some u → u ≤ x → y = u) := by
  obtain ⟨lo, up⟩ := c
  cases lo with
  | none =>
    cases up with
    | none => cases h
    | some u =>
      have h : min x u = y := Option.some.inj h
      subst h
      exact ⟨nofun, fun u' e => by cases e; exact min_le_right _ _, fun _ h2 => min_eq_left (h2 u rfl), nofun,
        fun u' e hx => by cases e; exact min_eq_right hx⟩
  | some l =>
    cases up with
    | none =>
      have h : max x l = y := Option.some.inj h
      subst h
      exact ⟨fun l' e => by cases e; exact le_max_right _ _, nofun, fun h1 _ => max_eq_left (h1 l rfl),
        fun l' e hx => by cases e; exact max_eq_right hx, nofun⟩
    | some u =>
      have h : (if l ≤ u then some (max (min x u) l) else none) = some y := h
      by_cases hlu : l ≤ u
      · rw [if_pos hlu] at h
        have h := Option.some.inj h
        subst h
        refine ⟨fun l' e => by cases e; exact le_max_right _ _, fun u' e => by cases e; exact max_le (min_le_right _ _) hlu,
          fun h1 h2 => ?_, fun l' e hx => ?_, fun u' e hx => ?_⟩
        · rw [min_eq_left (h2 u rfl), max_eq_left (h1 l rfl)]
        · cases e
          rw [min_eq_left (le_trans hx hlu), max_eq_right hx]
        · cases e
          rw [min_eq_right hx, max_eq_left hlu]
      · rw [if_neg hlu] at h
        cases h

/-- A row is clipped entry by entry. -/
theorem clip_row (c : Clip K) (row out : List K) (h : applyClip c row = some out) :
    out.length = row.length ∧ ∀ (i : Nat) (x : K), row[i]? = some x → ∃ y, out[i]? = some y ∧ clip c x = some y := by
  unfold applyClip at h
  induction row generalizing out with
  | nil => cases h; exact ⟨rfl, nofun⟩
  | cons x row ih =>
    rw [List.mapM_cons] at h
    cases hx : clip c x with
    | none => rw [hx] at h; cases h
    | some y =>
      rw [hx] at h
      cases hr : row.mapM (clip c) with
      | none => rw [hr] at h; cases h
      | some ys =>
        rw [hr] at h
        cases h
        obtain ⟨h1, h2⟩ := ih ys hr
        refine ⟨congrArg (· + 1) h1, fun i z hz => ?_⟩
        cases i with
        | zero => cases hz; exact ⟨y, rfl, hx⟩
        | succ i => exact h2 i z hz

/-- A row with clipping values in order is accepted. -/
theorem clip_accepts (c : Clip K) (row : List K) (h : c.lower ≠ none ∨ c.upper ≠ none)
    (ho : ∀ l u, c.lower = some l → c.upper = some u → l ≤ u) : ∃ out, applyClip c row = some out := by
  unfold applyClip
  induction row with
  | nil => exact ⟨[], rfl⟩
  | cons x row ih =>
    obtain ⟨y, hy⟩ := (clip_defined c x).2 ⟨h, ho⟩
    obtain ⟨ys, hys⟩ := ih
    refine ⟨y :: ys, ?_⟩
    rw [List.mapM_cons, hy, hys]
    rfl

/-- Clipped values are in the announced range, which is that of the input, if the clipping bounds are not outside of it. What is missing:
a lower clipping value above, or an upper one below the range, see `clip_violation`. -/
theorem clip_contained_partial (c : Clip K) (input : Range K) (row out : List K) (h : applyClip c row = some out) (hc : Contains input row)
    (hl : ∀ l, c.lower = some l → ∀ m, input.max = some m → ∀ i b, BoundAt m i b → Below l b)
    (hu : ∀ u, c.upper = some u → ∀ m, input.min = some m → ∀ i b, BoundAt m i b → Above u b) : Contains (inherited input) out := by
  obtain ⟨h1, h2⟩ := clip_row c row out h
  refine ⟨h1.trans hc.1, fun i y hy => ?_⟩
  have hi : i < row.length := by rw [← h1]; exact (List.getElem?_eq_some_iff.1 hy).1
  have hx : row[i]? = some row[i] := List.getElem?_eq_getElem hi
  generalize row[i] = x at hx
  obtain ⟨y', hy', hcl⟩ := h2 i x hx
  rw [hy] at hy'
  cases hy'
  obtain ⟨v1, v2, v3, v4, v5⟩ := clip_value c x y hcl
  have hcase : y = x ∨ (∃ l, c.lower = some l ∧ y = l ∧ x ≤ l) ∨ (∃ u, c.upper = some u ∧ y = u ∧ u ≤ x) := by
    by_cases ha : ∃ l, c.lower = some l ∧ x ≤ l
    · obtain ⟨l, e, hle⟩ := ha
      exact .inr (.inl ⟨l, e, v4 l e hle, hle⟩)
    · by_cases hb : ∃ u, c.upper = some u ∧ u ≤ x
      · obtain ⟨u, e, hle⟩ := hb
        exact .inr (.inr ⟨u, e, v5 u e hle, hle⟩)
      · left
        refine v3 (fun l e => ?_) (fun u e => ?_)
        · rcases le_total l x with h | h
          · exact h
          · exact absurd ⟨l, e, h⟩ ha
        · rcases le_total x u with h | h
          · exact h
          · exact absurd ⟨u, e, h⟩ hb
  obtain ⟨r1, r2⟩ := hc.2 i x hx
  constructor
  · intro m hm
    obtain ⟨b, hb, hab⟩ := r1 m hm
    refine ⟨b, hb, ?_⟩
    rcases hcase with e | ⟨l, e, e', hle⟩ | ⟨u, e, e', hle⟩
    · rw [e]; exact hab
    · rw [e']
      cases b with
      | bot => trivial
      | top => exact hab.elim
      | fin a => exact le_trans hab hle
    · rw [e']
      exact hu u e m hm i b hb
  · intro m hm
    obtain ⟨b, hb, hbb⟩ := r2 m hm
    refine ⟨b, hb, ?_⟩
    rcases hcase with e | ⟨l, e, e', hle⟩ | ⟨u, e, e', hle⟩
    · rw [e]; exact hbb
    · rw [e']
      exact hl l e m hm i b hb
    · rw [e']
      cases b with
      | bot => exact hbb.elim
      | top => trivial
      | fin a => exact le_trans hle hbb

/-- If the upper clipping value is below the lower bound of the input, every value is outside of the announced range. -/
theorem clip_violation (c : Clip K) (a b u x : K) (row out : List K) (hu : c.upper = some u) (hua : u < a)
    (hx : row[0]? = some x) (h : applyClip c row = some out) :
    ¬ Contains (inherited ⟨row.length, some (.one (.fin a)), some (.one (.fin b))⟩) out := by
  intro hc
  obtain ⟨h1, h2⟩ := clip_row c row out h
  obtain ⟨y, hy, hcl⟩ := h2 0 x hx
  obtain ⟨b', hb', hab⟩ := (hc.2 0 y hy).1 _ rfl
  cases hb'
  exact absurd (le_trans hab ((clip_value c x y hcl).2.1 u hu)) (not_le.2 hua)

variable [IsStrictOrderedRing K]

/-- Instance and batch normalization also announce the range of their input: the only entry of a state between positive bounds becomes
zero, which is outside of it. -/
theorem normalized_violation (c : Config K) (f : K → K) (a b x : K) (hs : c.shape = []) (ha : 0 < a) :
    ∀ out ∈ instanceNorm c f [[x]], ¬ Contains (inherited ⟨1, some (.one (.fin a)), some (.one (.fin b))⟩) out := by
  intro out hout hc
  have hr : Rows c.shape [[x]] := by
    intro r h
    rw [List.mem_singleton.1 h, hs]
    rfl
  have hi : [] ∈ indices c.shape := by rw [hs]; exact List.mem_singleton.2 rfl
  have hg : group c.axes c.shape [] = [[]] := by
    rw [hs]
    unfold group
    rw [show indices [] = [[]] from rfl, List.filter_cons, if_pos (decide_eq_true (along_refl _ _ _)), List.filter_nil]
  obtain ⟨o, ho⟩ : ∃ o, batchNorm c f [[x]] = [o] := ⟨_, rfl⟩
  have he : instanceNorm c f [[x]] = batchNorm c f [[x]] := rfl
  rw [he, ho] at hout
  rw [List.mem_singleton.1 hout] at hc
  have hz := mean_zero (r := factor c f (groupVar c [[x]] [])) (groupMean_mean (c := c) (rows := [[x]]) hi (List.cons_ne_nil _ _))
  rw [← batch_cells (f := f) hr, ho, hg] at hz
  have hz := hz.2
  rw [zero_mul, hs] at hz
  have hz : (0 : K) = o.getD 0 0 + 0 := hz
  have hlen : o.length = 1 := hc.1
  have h0 : o[0]? = some 0 := by
    rw [List.getD_eq_getElem?_getD, List.getElem?_eq_getElem (by omega), add_zero] at hz
    rw [List.getElem?_eq_getElem (by omega)]
    exact congrArg some hz.symm
  obtain ⟨b', hb', hab⟩ := (hc.2 0 0 h0).1 _ rfl
  cases hb'
  exact absurd hab (not_le.2 ha)

example : clip (K := ℚ) ⟨some 0, some 1⟩ 3 = some 1 ∧ clip (K := ℚ) ⟨some 0, some 1⟩ (1 / 2) = some (1 / 2) ∧
    clip (K := ℚ) ⟨some 0, some 1⟩ (-3) = some 0 ∧ clip (K := ℚ) ⟨some 1, some 0⟩ 3 = none ∧ clip (K := ℚ) ⟨none, some 1⟩ (-3) = some (-3) := by
  decide +kernel

/-- States between 2 and 3, clipped at 1. -/
example : ¬ Contains (inherited ⟨1, some (.one (.fin 2)), some (.one (.fin (3 : ℚ)))⟩) [1] :=
  clip_violation (⟨none, some 1⟩ : Clip ℚ) 2 3 1 (5 / 2) [5 / 2] [1] rfl (by decide +kernel) rfl (by decide +kernel)

/-- States between 0 and 3, clipped at 1: contained. -/
example : ∀ m, (some (Bnd.one (.fin (0 : ℚ)))) = some m → ∀ i b, BoundAt m i b → Above (1 : ℚ) b := by
  intro m hm i b hb
  cases hm
  cases hb
  show (0 : ℚ) ≤ 1
  decide +kernel

end Verif.Props.Clipping
