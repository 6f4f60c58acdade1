import Verif.Explore.Lemmas

/-! # Properties of exploration and random actions (C26) -/

namespace Verif.Props.Explore

open Verif.Explore

/-! ## Choice among the valid actions -/

/-- C26: every masked random choice succeeds and picks a valid action for every component. -/
theorem masked_valid (n : Nat) (mask : List (List Bool)) (us : List Rat) (hm : GoodMask n mask) (hu : InUnit us) (hl : us.length = mask.length) :
    ∃ r, maskedRandom id n mask us = some r ∧ AllValid mask r := by
  have hr := inRange_of id (fun u => 0 ≤ u ∧ u < 1) n (fun u c h hc => offset_exact u c h.1 h.2 hc) mask us hm hu hl
  exact ⟨_, maskedRandom_rows id n mask us (fun r h => (hm r h).1) hr, rows_valid id mask us hr⟩

/-- C26: every combination of valid actions is picked for some random outcome. -/
theorem masked_every (n : Nat) (mask : List (List Bool)) (hm : GoodMask n mask) (a : List Nat) (ha : AllValid mask a) :
    ∃ us, us.length = mask.length ∧ InUnit us ∧ maskedRandom id n mask us = some a := by
  obtain ⟨us, e1, e2, e3, e4⟩ := rows_hit id (fun u => 0 ≤ u ∧ u < 1) n (fun k c hk _ => offset_exact_hits k c hk) mask (fun r h => (hm r h).1) a ha
  exact ⟨us, e1, e2, by rw [maskedRandom_rows id n mask us (fun r h => (hm r h).1) e3, e4]⟩

/-- C26 in 32-bit arithmetic: the product of a random number below one and the number of valid actions is never rounded up to it. -/
theorem masked_valid_float (rnd : Rat → Rat) (hf : Rounding rnd) (n : Nat) (mask : List (List Bool)) (us : List Rat) (hm : GoodMask n mask)
    (hu : Grid us) (hl : us.length = mask.length) : ∃ r, maskedRandom rnd n mask us = some r ∧ AllValid mask r := by
  have hr := inRange_of rnd (fun u => ∃ j : Nat, j < 2 ^ 23 ∧ u = (j : Rat) / 2 ^ 23) n
    (fun u c ⟨j, hj, e⟩ hc => by rw [e]; exact offset_float rnd hf j c hj hc) mask us hm hu hl
  exact ⟨_, maskedRandom_rows rnd n mask us (fun r h => (hm r h).1) hr, rows_valid rnd mask us hr⟩

/-- C26 in 32-bit arithmetic: every combination of valid actions is picked for some random outcome, for up to two million actions. -/
theorem masked_every_float (rnd : Rat → Rat) (hf : Rounding rnd) (n : Nat) (hn : n ≤ 2 ^ 21) (mask : List (List Bool)) (hm : GoodMask n mask)
    (a : List Nat) (ha : AllValid mask a) : ∃ us, us.length = mask.length ∧ Grid us ∧ maskedRandom rnd n mask us = some a := by
  obtain ⟨us, e1, e2, e3, e4⟩ := rows_hit rnd (fun u => ∃ j : Nat, j < 2 ^ 23 ∧ u = (j : Rat) / 2 ^ 23) n
    (fun k c hk hc => by
      obtain ⟨j, hj, e⟩ := offset_float_hits rnd hf k c hk (by omega)
      exact ⟨_, ⟨j, hj, rfl⟩, e⟩) mask (fun r h => (hm r h).1) a ha
  exact ⟨us, e1, e2, by rw [maskedRandom_rows rnd n mask us (fun r h => (hm r h).1) e3, e4]⟩

/-- The choice is uniform: the `k`-th of `c` valid actions is picked for the outcomes in an interval of length `1 / c`. -/
theorem masked_uniform (u : Rat) (c k : Nat) (h0 : 0 ≤ u) : randomOffset id u c = k ↔ (k : Rat) ≤ u * c ∧ u * c < (k : Rat) + 1 := by
  constructor
  · intro h
    have hx : 0 ≤ u * (c : Rat) := Rat.mul_nonneg h0 (by exact_mod_cast Nat.zero_le c)
    rw [randomOffset, toInt, id, if_pos hx] at h
    have a := Rat.floor_le (u * (c : Rat))
    have b := Rat.lt_floor (x := u * (c : Rat))
    rw [h] at a b
    have e : (((k : Int)) : Rat) = (k : Rat) := by norm_cast
    rw [e] at a b
    exact ⟨a, by grind⟩
  · intro ⟨a, b⟩
    exact toInt_eq _ k a b

example : maskedRandom id 3 [[true, false, true], [false, true, false]] [1/2, 9/10] = some [2, 1] ∧
    AllValid [[true, false, true], [false, true, false]] [2, 1] := by
  refine ⟨by decide +kernel, rfl, fun k x h => ?_⟩
  match k with
  | 0 => exact ⟨_, rfl, by simp at h; subst h; rfl⟩
  | 1 => exact ⟨_, rfl, by simp at h; subst h; rfl⟩
  | k + 2 => simp at h

example : Rounding id := fun x hx => by simp only [id]; constructor <;> grind

/-! ## Exploration -/

/-- Exploration of a masked action: whatever the amount, a valid action stays valid. -/
theorem explore_masked_valid (n : Nat) (mask : List (List Bool)) (det : Bool) (e : Rat) (d : Draws) (a : List Nat) (hm : GoodMask n mask)
    (hu : InUnit d.uniform) (hl : d.uniform.length = mask.length) (hfl : d.flags.length = mask.length) (ha : AllValid mask a) :
    ∃ b, explore id true (.choice n) mask det e d (.ints (a.map Int.ofNat)) = some (.ints (b.map Int.ofNat)) ∧ AllValid mask b := by
  unfold explore
  split
  · exact ⟨a, rfl, ha⟩
  · obtain ⟨r, hr, hv⟩ := masked_valid n mask d.uniform hm hu hl
    refine ⟨choose e d.flags r a, ?_, ?_, fun k x hx => ?_⟩
    · simp only [applyExploration, if_true, hr, Option.map_some, choose]
      congr 2
      rw [List.map_zipWith, List.zip_map, List.zipWith_map_right]
      congr 1
      funext f p
      simp only [Prod.map]
      split <;> rfl
    · simp only [choose, List.length_zipWith, List.length_zip, hv.1, ha.1, hfl, Nat.min_self]
    · simp only [choose, List.getElem?_zipWith] at hx
      cases hf : d.flags[k]? with
      | none => simp [hf] at hx
      | some f =>
        rw [hf] at hx
        cases hz : (r.zip a)[k]? with
        | none => simp [hz] at hx
        | some p =>
          rw [hz] at hx
          obtain ⟨hr', ha'⟩ := List.getElem?_zip_eq_some.mp hz
          simp only [Option.some.injEq] at hx
          split at hx
          · subst hx; exact hv.2 k _ hr'
          · subst hx; exact ha.2 k _ ha'

theorem choose_all {α : Type} (e : Rat) (he : 0 < e) (m : Nat) (r a : List α) (hr : r.length = m) (ha : a.length = m) :
    choose e (List.replicate m 0) r a = r := by
  induction m generalizing r a with
  | zero => simp [choose, List.length_eq_zero_iff.mp hr]
  | succ m ih =>
    match r, a, hr, ha with
    | x :: r, y :: a, hr, ha =>
      have := ih r a (by simpa using hr) (by simpa using ha)
      simp only [choose] at this ⊢
      simp only [List.replicate_succ, List.zip_cons_cons, List.zipWith_cons_cons, this, if_pos he]

/-- A component is replaced if its flag is below the amount of exploration, and kept otherwise: the flags that replace it are an interval
of length `e`. -/
theorem choose_entry {α : Type} (e : Rat) (flags : List Rat) (r a : List α) (k : Nat) (f : Rat) (x y : α) (hf : flags[k]? = some f)
    (hr : r[k]? = some x) (ha : a[k]? = some y) :
    (f < e → (choose e flags r a)[k]? = some x) ∧ (e ≤ f → (choose e flags r a)[k]? = some y) := by
  have hz : (r.zip a)[k]? = some (x, y) := List.getElem?_zip_eq_some.mpr ⟨hr, ha⟩
  simp only [choose, List.getElem?_zipWith, hf, hz]
  refine ⟨fun h => by rw [if_pos h], fun h => by rw [if_neg (by grind)]⟩

/-- Exploration of a masked action reaches every combination of valid actions, from every action. -/
theorem explore_masked_every (n : Nat) (mask : List (List Bool)) (e : Rat) (he : 0 < e) (a : List Int) (t : List Nat) (hm : GoodMask n mask)
    (hl : a.length = mask.length) (ht : AllValid mask t) :
    ∃ d : Draws, InUnit d.uniform ∧ InUnit d.flags ∧ explore id true (.choice n) mask false e d (.ints a) = some (.ints (t.map Int.ofNat)) := by
  obtain ⟨us, e1, e2, e3⟩ := masked_every n mask hm t ht
  refine ⟨⟨us, List.replicate mask.length 0, []⟩, e2, fun u hu => ?_, ?_⟩
  · rw [(List.mem_replicate.mp hu).2]; constructor <;> decide +kernel
  · have : ¬ e = 0 := by grind
    simp only [explore, this, decide_false, Bool.or_false, Bool.false_eq_true, if_false, applyExploration, if_true, e3, Option.map_some]
    rw [choose_all e he mask.length _ a (by simp [ht.1]) hl]

theorem uniformInt_range (lo hi : Int) (h : lo < hi) (us : List Rat) (hu : InUnit us) :
    ∃ r, uniformInt lo hi us = some r ∧ r.length = us.length ∧ ∀ x ∈ r, lo ≤ x ∧ x < hi := by
  refine ⟨_, if_pos h, by simp, fun x hx => ?_⟩
  obtain ⟨u, hm, rfl⟩ := List.mem_map.mp hx
  obtain ⟨h0, h1⟩ := hu u hm
  obtain ⟨c, hc⟩ : ∃ c : Nat, hi - lo = c := ⟨(hi - lo).toNat, by omega⟩
  have := offset_exact u c h0 h1 (by omega)
  have hcr : (0 : Rat) ≤ (c : Rat) := by exact_mod_cast Nat.zero_le c
  rw [randomOffset, id, toInt, if_pos (Rat.mul_nonneg h0 hcr)] at this
  have e : ((hi - lo : Int) : Rat) = (c : Rat) := by rw [hc]; norm_cast
  rw [e]
  omega

theorem uniformInt_every (lo hi : Int) (t : List Int) (h : lo < hi) (ht : ∀ x ∈ t, lo ≤ x ∧ x < hi) :
    ∃ us, us.length = t.length ∧ InUnit us ∧ uniformInt lo hi us = some t := by
  obtain ⟨c, hc⟩ : ∃ c : Nat, hi - lo = c := ⟨(hi - lo).toNat, by omega⟩
  have hcr : (0 : Rat) ≤ (c : Rat) := by exact_mod_cast Nat.zero_le c
  have e : ((hi - lo : Int) : Rat) = (c : Rat) := by rw [hc]; norm_cast
  induction t with
  | nil => exact ⟨[], rfl, by simp [InUnit], by simp [uniformInt, h]⟩
  | cons x t ih =>
    obtain ⟨us, e1, e2, e3⟩ := ih fun y hy => ht y (by simp [hy])
    obtain ⟨h0, h1⟩ := ht x (by simp)
    obtain ⟨u, hu, ho⟩ := offset_exact_hits (x - lo).toNat c (by omega)
    refine ⟨u :: us, by simp [e1], fun v hv => ?_, ?_⟩
    · rcases List.mem_cons.mp hv with rfl | hv
      · exact hu
      · exact e2 v hv
    · rw [uniformInt, if_pos h, Option.some.injEq] at e3 ⊢
      rw [List.map_cons, e3, e]
      rw [randomOffset, id, toInt, if_pos (Rat.mul_nonneg hu.1 hcr)] at ho
      rw [ho]
      congr 1
      omega

/-- Exploration of an action with `num_values` and without masking stays within the values. -/
theorem explore_int_within (n : Nat) (mask : List (List Bool)) (det : Bool) (e : Rat) (d : Draws) (a : List Int) (hn : 0 < n)
    (hu : InUnit d.uniform) (ha : ∀ x ∈ a, 0 ≤ x ∧ x < (n : Int)) :
    ∃ b, explore id false (.choice n) mask det e d (.ints a) = some (.ints b) ∧ ∀ x ∈ b, 0 ≤ x ∧ x < (n : Int) := by
  unfold explore
  split
  · exact ⟨a, rfl, ha⟩
  · obtain ⟨r, hr, _, hv⟩ := uniformInt_range 0 n (by omega) d.uniform hu
    refine ⟨choose e d.flags r a, by simp [applyExploration, hr], fun x hx => ?_⟩
    obtain ⟨i, hi, he⟩ := List.mem_iff_getElem.mp hx
    simp only [choose, List.getElem_zipWith, List.getElem_zip] at he
    split at he
    · subst he; exact hv _ (List.getElem_mem _)
    · subst he; exact ha _ (List.getElem_mem _)

/-- It reaches every combination of values, from every action. -/
theorem explore_int_every (n : Nat) (mask : List (List Bool)) (e : Rat) (he : 0 < e) (a t : List Int) (hn : 0 < n) (hl : a.length = t.length)
    (ht : ∀ x ∈ t, 0 ≤ x ∧ x < (n : Int)) :
    ∃ d : Draws, InUnit d.uniform ∧ InUnit d.flags ∧ explore id false (.choice n) mask false e d (.ints a) = some (.ints t) := by
  obtain ⟨us, e1, e2, e3⟩ := uniformInt_every 0 n t (by omega) ht
  refine ⟨⟨us, List.replicate t.length 0, []⟩, e2, fun u hu => ?_, ?_⟩
  · rw [(List.mem_replicate.mp hu).2]; constructor <;> decide +kernel
  · have : ¬ e = 0 := by grind
    simp only [explore, this, decide_false, Bool.or_false, Bool.false_eq_true, if_false, applyExploration, e3, Option.map_some]
    rw [choose_all e he t.length _ a rfl hl]

/-- Exploration of a float action stays within its bounds, one-sided or not, for every noise. -/
theorem explore_float_within (masking : Bool) (lo hi : Option Rat) (mask : List (List Bool)) (det : Bool) (e : Rat) (d : Draws) (a : List Rat)
    (hb : ∀ l h, lo = some l → hi = some h → l ≤ h) (ha : ∀ x ∈ a, Within lo hi x) :
    ∃ b, explore id masking (.float lo hi) mask det e d (.floats a) = some (.floats b) ∧ ∀ x ∈ b, Within lo hi x := by
  unfold explore
  split
  · exact ⟨a, rfl, ha⟩
  · refine ⟨_, rfl, fun x hx => ?_⟩
    obtain ⟨i, hi', he⟩ := List.mem_iff_getElem.mp hx
    rw [List.getElem_zipWith] at he
    generalize a[i]'_ + d.normal[i]'_ * e = y at he
    subst he
    unfold clip Within
    cases lo with
    | none => cases hi with
      | none => simp
      | some h => exact ⟨by simp, fun h' e' => by cases e'; grind⟩
    | some l => cases hi with
      | none => exact ⟨fun l' e' => by cases e'; grind, by simp⟩
      | some h =>
        have := hb l h rfl rfl
        exact ⟨fun l' e' => by cases e'; grind, fun h' e' => by cases e'; grind⟩

/-- It reaches every combination of values within the bounds, from every action. -/
theorem explore_float_every (masking : Bool) (lo hi : Option Rat) (mask : List (List Bool)) (e : Rat) (he : e ≠ 0) (a t : List Rat) (hl : a.length = t.length)
    (ht : ∀ x ∈ t, Within lo hi x) :
    ∃ d : Draws, explore id masking (.float lo hi) mask false e d (.floats a) = some (.floats t) := by
  refine ⟨⟨[], [], List.zipWith (fun x y => (y - x) / e) a t⟩, ?_⟩
  simp only [explore, he, decide_false, Bool.or_false, Bool.false_eq_true, if_false, applyExploration]
  congr 2
  apply List.ext_getElem
  · simp [hl]
  · intro i h1 h2
    rw [List.getElem_zipWith, List.getElem_zipWith, Rat.div_mul_cancel he]
    have hy := ht t[i] (List.getElem_mem _)
    generalize t[i] = y at hy ⊢
    have ey : ∀ x : Rat, x + (y - x) = y := fun x => by grind
    rw [ey]
    obtain ⟨y0, y1⟩ := hy
    unfold clip
    cases lo with
    | none => cases hi with
      | none => rfl
      | some h => have := y1 h rfl; dsimp only; grind
    | some l => cases hi with
      | none => have := y0 l rfl; dsimp only; grind
      | some h => have := y0 l rfl; have := y1 h rfl; dsimp only; grind

/-- Without exploration, or for a deterministic action, the action is kept. -/
theorem explore_keeps (rnd : Rat → Rat) (masking : Bool) (spec : Spec) (mask : List (List Bool)) (det : Bool) (e : Rat) (d : Draws) (a : Tensor)
    (h : det = true ∨ e = 0) : explore rnd masking spec mask det e d a = some a := by
  unfold explore
  rcases h with h | h <;> simp [h]

/-- A global amount of exploration is used for every action: its value, or its final value for independent act. -/
theorem global_amount (p : Amount) (independent : Bool) (name : String) (hz : p.constantZero = true → p.value = 0) :
    ∃ x : Option Rat, amount independent name (.all p) = some x ∧ x.getD 0 = if independent then p.final else p.value := by
  unfold amount
  cases independent
  · cases h : p.constantZero
    · exact ⟨some p.value, by simp [h], rfl⟩
    · exact ⟨none, by simp [h], by simp [hz h]⟩
  · by_cases h : p.final = 0
    · exact ⟨none, by simp [h], by simp [h]⟩
    · exact ⟨some p.final, by simp [h], rfl⟩

example : explore id true (.choice 3) [[true, false, true]] false (1/2) ⟨[3/4], [1/4], []⟩ (.ints [0]) = some (.ints [2]) ∧
    explore id true (.choice 3) [[true, false, true]] false (1/2) ⟨[3/4], [3/4], []⟩ (.ints [0]) = some (.ints [0]) := by decide +kernel

example : explore id true (.float (some 0) (some 1)) [] false 2 ⟨[], [], [3, -1/8]⟩ (.floats [1/2, 1/2]) = some (.floats [1, 1/4]) := by decide +kernel

/-! ## Random actions -/

/-- The random agent picks valid actions if masking is on, and each of them for some outcome. -/
theorem random_masked (n : Nat) (mask : List (List Bool)) (hm : GoodMask n mask) :
    (∀ d : Draws, InUnit d.uniform → d.uniform.length = mask.length →
      ∃ r, randomAction id true mask d (.choice n) = some (.ints (r.map Int.ofNat)) ∧ AllValid mask r) ∧
    (∀ t, AllValid mask t → ∃ d : Draws, InUnit d.uniform ∧ randomAction id true mask d (.choice n) = some (.ints (t.map Int.ofNat))) := by
  refine ⟨fun d hu hl => ?_, fun t ht => ?_⟩
  · obtain ⟨r, hr, hv⟩ := masked_valid n mask d.uniform hm hu hl
    exact ⟨r, by simp [randomAction, hr], hv⟩
  · obtain ⟨us, _, e2, e3⟩ := masked_every n mask hm t ht
    exact ⟨⟨us, [], []⟩, e2, by simp [randomAction, e3]⟩

/-- Random int and float actions with two bounds stay within them. -/
theorem random_within (masking : Bool) (mask : List (List Bool)) (d : Draws) (hu : InUnit d.uniform) :
    (∀ lo hi : Int, lo < hi → ∃ r, randomAction id masking mask d (.int (some lo) (some hi)) = some (.ints r) ∧ ∀ x ∈ r, lo ≤ x ∧ x < hi) ∧
    (∀ lo hi : Rat, lo < hi → ∃ r, randomAction id masking mask d (.float (some lo) (some hi)) = some (.floats r) ∧ ∀ x ∈ r, lo ≤ x ∧ x < hi) := by
  refine ⟨fun lo hi h => ?_, fun lo hi h => ⟨_, rfl, fun x hx => ?_⟩⟩
  · obtain ⟨r, hr, _, hv⟩ := uniformInt_range lo hi h d.uniform hu
    exact ⟨r, by simp [randomAction, hr], hv⟩
  · obtain ⟨u, hm, rfl⟩ := List.mem_map.mp hx
    obtain ⟨h0, h1⟩ := hu u hm
    have hd : 0 < hi - lo := by grind
    have a := Rat.mul_nonneg h0 (Rat.le_of_lt hd)
    have b := Rat.mul_lt_mul_of_pos_right h1 hd
    generalize u * (hi - lo) = z at a b
    constructor <;> grind

/-- Random float actions reach every value but the upper bound. Missing: the upper bound, and bounded int actions (see below). -/
theorem random_float_every_partial (masking : Bool) (mask : List (List Bool)) (lo hi : Rat) (h : lo < hi) (x : Rat) (h0 : lo ≤ x) (h1 : x < hi) :
    ∃ d : Draws, InUnit d.uniform ∧ randomAction id masking mask d (.float (some lo) (some hi)) = some (.floats [x]) := by
  have hd : 0 < hi - lo := by grind
  have hi' := Rat.inv_pos.mpr hd
  refine ⟨⟨[(x - lo) / (hi - lo)], [], []⟩, fun u hu => ?_, ?_⟩
  · rw [List.mem_singleton] at hu
    subst hu
    refine ⟨?_, ?_⟩
    · rw [Rat.div_def]; exact Rat.mul_nonneg (by grind) (Rat.le_of_lt hi')
    · rw [Rat.div_lt_iff hd]; grind
  · have e : (x - lo) / (hi - lo) * (hi - lo) = x - lo := Rat.div_mul_cancel (by grind)
    simp only [randomAction, uniformFloat, List.map_cons, List.map_nil, e]
    congr 3
    grind

/-! ## Violations -/

/-- Without masking the random agent never picks the last of several values, whatever the outcome. -/
theorem random_last_violation (n : Nat) (hn : 2 ≤ n) (mask : List (List Bool)) (d : Draws) (hu : InUnit d.uniform) :
    ∃ r, randomAction id false mask d (.choice n) = some (.ints r) ∧ ((n : Int) - 1) ∉ r := by
  obtain ⟨r, hr, _, hv⟩ := uniformInt_range 0 ((n : Int) - 1) (by omega) d.uniform hu
  refine ⟨r, by simp [randomAction, hr], fun hm => ?_⟩
  have := hv _ hm
  omega

/-- Nor the upper bound of a bounded int action. -/
theorem random_bound_violation (lo hi : Int) (h : lo < hi) (masking : Bool) (mask : List (List Bool)) (d : Draws) (hu : InUnit d.uniform) :
    ∃ r, randomAction id masking mask d (.int (some lo) (some hi)) = some (.ints r) ∧ hi ∉ r := by
  obtain ⟨r, hr, hv⟩ := (random_within masking mask d hu).1 lo hi h
  exact ⟨r, hr, fun hm => by have := hv _ hm; omega⟩

/-- And it fails for an action with a single value, and for actions with one bound only. -/
theorem random_fails_violation (rnd : Rat → Rat) (masking : Bool) (mask : List (List Bool)) (d : Draws) (l : Int) (x : Rat) :
    randomAction rnd false mask d (.choice 1) = none ∧ randomAction rnd masking mask d (.int (some l) none) = none ∧
    randomAction rnd masking mask d (.int none (some l)) = none ∧ randomAction rnd masking mask d (.float (some x) none) = none ∧
    randomAction rnd masking mask d (.float none (some x)) = none := by
  simp [randomAction, uniformInt]

/-- Exploration fails for every int action without `num_values`. -/
theorem int_exploration_violation (rnd : Rat → Rat) (masking : Bool) (lo hi : Option Int) (mask : List (List Bool)) (e : Rat) (he : e ≠ 0)
    (d : Draws) (a : List Int) : explore rnd masking (.int lo hi) mask false e d (.ints a) = none := by
  simp [explore, he, applyExploration]

/-- Exploration given per action fails whenever an amount is not constantly zero. -/
theorem per_action_violation (rnd : Rat → Rat) (masking : Bool) (spec : Spec) (mask : List (List Bool)) (det : Bool) (name : String) (p : Amount)
    (hp : p.constantZero = false) (d : Draws) (a : Tensor) :
    actExplore rnd masking spec mask false det name (.perAction [(name, p)]) d a = none := by
  simp [actExplore, amount, hp]

end Verif.Props.Explore
