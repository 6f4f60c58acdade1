import Verif.Optim.Subsample

/-! # Properties of subsampling (C36) -/

namespace Verif.Props.Subsample

open Verif.Optim.Subsample

variable {S X : Type}

theorem gather_some {α : Type} (xs : List α) (is : List Nat) (h : ∀ i ∈ is, i < xs.length) :
    ∃ ys, gather xs is = some ys ∧ ys.length = is.length ∧ ∀ k i : Nat, is[k]? = some i → ys[k]? = xs[i]? := by
  induction is with
  | nil => exact ⟨[], rfl, rfl, fun k i hk => by simp at hk⟩
  | cons i is ih =>
    obtain ⟨ys, h1, h2, h3⟩ := ih fun j hj => h j (List.mem_cons_of_mem _ hj)
    have hi := h i List.mem_cons_self
    refine ⟨xs[i] :: ys, by simp only [gather, List.getElem?_eq_getElem hi, h1], by simp [h2], fun k j hk => ?_⟩
    cases k with
    | zero => simp only [List.getElem?_cons_zero, Option.some.injEq] at hk ⊢; rw [← hk, List.getElem?_eq_getElem hi]
    | succ k => simpa using h3 k j (by simpa using hk)

theorem gather_none {α : Type} (xs : List α) (is : List Nat) (i : Nat) (hi : i ∈ is) (h : xs.length ≤ i) : gather xs is = none := by
  induction is with
  | nil => simp at hi
  | cons j is ih =>
    rcases List.mem_cons.mp hi with rfl | hi
    · simp only [gather, List.getElem?_eq_none h]
    · simp only [gather, ih hi]
      split
      case h_1 h => cases h
      case h_2 => rfl

theorem gather_append {α : Type} (xs : List α) (is js : List Nat) (ys zs : List α) (h1 : gather xs is = some ys)
    (h2 : gather xs js = some zs) : gather xs (is ++ js) = some (ys ++ zs) := by
  induction is generalizing ys with
  | nil => simp only [gather, Option.some.injEq] at h1; rw [← h1]; exact h2
  | cons i is ih =>
    simp only [gather] at h1
    split at h1
    case h_1 x ws hx hw =>
      simp only [Option.some.injEq] at h1
      simp only [List.cons_append, gather, hx, ih ws hw, ← h1]
    case h_2 => cases h1

theorem gather_range {α : Type} (xs : List α) (s l : Nat) (h : s + l ≤ xs.length) :
    gather xs (List.range' s l) = some ((xs.drop s).take l) := by
  induction l generalizing s with
  | zero => simp [gather]
  | succ l ih =>
    have hs : s < xs.length := by omega
    rw [List.range'_succ, gather, List.getElem?_eq_getElem hs, ih (s + 1) (by omega), List.drop_eq_getElem_cons hs, List.take_succ_cons]

/-- Cutting a concatenation at the exclusive sums of the lengths gives the pieces back. -/
theorem cut (before : List S) (ws : List (List S)) (ls : List Nat) (hl : ls = ws.map List.length) (k : Nat) :
    ((List.zip (cumsum before.length ls) ls)[k]?).map (fun h => ((before ++ ws.flatten).drop h.1).take h.2) = ws[k]? := by
  induction ws generalizing before ls k with
  | nil => subst hl; simp [cumsum]
  | cons w ws ih =>
    subst hl
    cases k with
    | zero => simp [cumsum]
    | succ k =>
      have := ih (before ++ w) _ rfl k
      simpa [cumsum, List.append_assoc] using this

theorem gather_mem {α : Type} (xs : List α) (is : List Nat) (ys : List α) (h : gather xs is = some ys) : ∀ y ∈ ys, y ∈ xs := by
  induction is generalizing ys with
  | nil => simp only [gather, Option.some.injEq] at h; subst h; simp
  | cons i is ih =>
    simp only [gather] at h
    split at h
    case h_1 x ws hx hw =>
      simp only [Option.some.injEq] at h
      subst h
      intro y hy
      rcases List.mem_cons.mp hy with rfl | hy
      · exact List.mem_of_getElem? hx
      · exact ih ws hw y hy
    case h_2 => cases h

/-- A window that does not run past the end. -/
def Inside (xs : List S) (p : Nat × Nat) : Prop := p.2 = 0 ∨ p.1 + p.2 ≤ xs.length

theorem gather_append_some {α : Type} (xs : List α) (is js : List Nat) (ys : List α) (h : gather xs (is ++ js) = some ys) :
    (∃ a, gather xs is = some a) ∧ ∃ c, gather xs js = some c := by
  induction is generalizing ys with
  | nil => exact ⟨⟨[], rfl⟩, ⟨ys, h⟩⟩
  | cons i is ih =>
    simp only [List.cons_append, gather] at h
    split at h
    case h_1 x ws hx hw =>
      obtain ⟨⟨a, ha⟩, c, hc⟩ := ih ws hw
      exact ⟨⟨x :: a, by simp only [gather, hx, ha]⟩, c, hc⟩
    case h_2 => cases h

theorem inside_of_gather (xs : List S) (hs : List (Nat × Nat)) (ys : List S) (h : gather xs (ranges hs) = some ys) :
    ∀ p ∈ hs, Inside xs p := by
  induction hs generalizing ys with
  | nil => simp
  | cons q hs ih =>
    obtain ⟨⟨a, ha⟩, c, hc⟩ := gather_append_some _ _ _ _ h
    intro p hp
    rcases List.mem_cons.mp hp with rfl | hp
    · rcases Nat.eq_zero_or_pos p.2 with h0 | h0
      · exact .inl h0
      · refine .inr (Decidable.by_contra fun hn => ?_)
        rw [gather_none xs _ (p.1 + p.2 - 1) (List.mem_range'_1.mpr (by omega)) (by omega)] at ha
        cases ha
    · exact ih c hc p hp

theorem gather_inside (xs : List S) (hs : List (Nat × Nat)) (h : ∀ p ∈ hs, Inside xs p) :
    gather xs (ranges hs) = some (hs.map fun p => (xs.drop p.1).take p.2).flatten := by
  induction hs with
  | nil => rfl
  | cons p hs ih =>
    rw [ranges, List.map_cons, List.flatten_cons]
    refine gather_append _ _ _ _ _ ?_ (ih fun q hq => h q (List.mem_cons_of_mem _ hq))
    rcases h p List.mem_cons_self with h0 | h0
    · rw [h0]; rfl
    · exact gather_range xs p.1 p.2 h0

theorem lengths (xs : List S) (hs : List (Nat × Nat)) (h : ∀ p ∈ hs, Inside xs p) :
    hs.map (·.2) = (hs.map fun p => (xs.drop p.1).take p.2).map List.length := by
  rw [List.map_map]
  refine List.map_congr_left fun p hp => ?_
  have := h p hp
  simp only [Function.comp, List.length_take, List.length_drop]
  rcases this with h | h <;> omega

theorem cumsum_length (a : Nat) (ls : List Nat) : (cumsum a ls).length = ls.length := by
  induction ls generalizing a with
  | nil => rfl
  | cons l ls ih => simp [cumsum, ih]

theorem cumsum_bound (a : Nat) (ls : List Nat) : ∀ h ∈ List.zip (cumsum a ls) ls, h.1 + h.2 ≤ a + ls.sum := by
  induction ls generalizing a with
  | nil => simp [cumsum]
  | cons l ls ih =>
    intro h hh
    simp only [cumsum, List.zip_cons_cons, List.mem_cons, List.sum_cons] at hh ⊢
    rcases hh with rfl | hh
    · dsimp only; omega
    · have := ih _ h hh; omega

theorem range_getElem (ws : List (List S)) : (List.range ws.length).filterMap (fun k => ws[k]?) = ws := by
  induction ws with
  | nil => rfl
  | cons w ws ih => simp [List.range_succ_eq_map, List.filterMap_map, Function.comp_def, ih]

theorem gather_spec {α : Type} (xs : List α) (is : List Nat) (ys : List α) (h : gather xs is = some ys) :
    ys.length = is.length ∧ ∀ k i : Nat, is[k]? = some i → ys[k]? = xs[i]? := by
  have hi : ∀ i ∈ is, i < xs.length := fun i hi => Decidable.by_contra fun hn => by
    rw [gather_none xs is i hi (by omega)] at h; cases h
  obtain ⟨zs, h1, h2⟩ := gather_some xs is hi
  rw [h1, Option.some.injEq] at h
  rw [← h]; exact h2

/-- C36: whenever subsampling does not raise, each selected timestep keeps its complete window and its other arguments, and the windows
lie one after another, in order and without gaps, for every batch, horizon table and index list. -/
theorem windows_kept (b s : Batch S X) (indices : List Nat) (h : subsample b indices = some s) :
    s.horizons.length = indices.length ∧ s.others.length = indices.length ∧
    (∀ k i : Nat, indices[k]? = some i → window s k = window b i ∧ s.others[k]? = b.others[i]?) ∧
    s.states = ((List.range indices.length).filterMap (window s)).flatten ∧ (∀ h ∈ s.horizons, h.1 + h.2 ≤ s.states.length) := by
  unfold subsample at h
  split at h
  case h_1 => cases h
  case h_2 hs g1 =>
    split at h
    case h_2 => cases h
    case h_1 ss xs g2 x1 =>
      have hv := inside_of_gather b.states hs ss g2
      rw [gather_inside b.states hs hv, Option.some.injEq] at g2
      rw [Option.some.injEq] at h
      subst g2
      obtain ⟨l1, l2⟩ := gather_spec _ _ _ g1
      obtain ⟨m1, m2⟩ := gather_spec _ _ _ x1
      have hlen := lengths b.states hs hv
      have hw : ∀ k, window s k = (hs.map fun p => (b.states.drop p.1).take p.2)[k]? := fun k => by
        have hc := cut ([] : List S) _ _ hlen k
        subst h
        exact hc
      have hss : s.states = (hs.map fun p => (b.states.drop p.1).take p.2).flatten := by rw [← h]
      have hhs : s.horizons = List.zip (cumsum 0 (hs.map (·.2))) (hs.map (·.2)) := by rw [← h]
      have hos : s.others = xs := by rw [← h]
      refine ⟨by rw [hhs]; simp [cumsum_length, l1], by rw [hos, m1], fun k i hk => ⟨?_, by rw [hos]; exact m2 k i hk⟩, ?_, ?_⟩
      · rw [hw k, window, ← l2 k i hk, List.getElem?_map]
      · have := range_getElem (hs.map fun p => (b.states.drop p.1).take p.2)
        rw [List.length_map, l1] at this
        rw [hss, funext hw, this]
      · intro p hp
        rw [hhs] at hp
        have := cumsum_bound _ _ p hp
        rw [hss, List.length_flatten, ← hlen]; omega

/-- C36: subsampling does not raise for a batch with valid horizons and indices of the batch. -/
theorem subsample_total (b : Batch S X) (hb : Valid b) (indices : List Nat) (hi : ∀ i ∈ indices, i < b.others.length) :
    ∃ s, subsample b indices = some s := by
  obtain ⟨hs, g1, -⟩ := gather_some b.horizons indices fun i h => by rw [hb.1]; exact hi i h
  obtain ⟨xs, x1, -⟩ := gather_some b.others indices hi
  have hw := gather_inside b.states hs fun p hp => .inr (hb.2 p (gather_mem _ _ _ g1 p hp))
  exact ⟨_, by simp only [subsample, g1, hw, x1]; rfl⟩

/-- An index outside the batch raises. -/
theorem out_of_range (b : Batch S X) (hb : Valid b) (indices : List Nat) (i : Nat) (hi : i ∈ indices) (h : b.others.length ≤ i) :
    subsample b indices = none := by
  simp only [subsample, gather_none b.horizons indices i hi (by rw [hb.1]; exact h)]

/-- The number of timesteps: at least one for a relative fraction, and as given for an absolute one. -/
theorem size_spec (n : Nat) (q : Rat) (k : Nat) : 1 ≤ size n (.relative q) ∧ size n (.absolute k) = k ∧
    (1 ≤ q * (n : Rat) → size n (.relative q) = (q * (n : Rat)).floor) := by
  refine ⟨Int.le_max_right .., rfl, fun h => ?_⟩
  have : 1 ≤ (q * (n : Rat)).floor := Rat.le_floor_iff.mpr (by exact_mod_cast h)
  simp only [size]; omega

/-- The inner optimizer receives the whole batch, or as many timesteps as the fraction says, fewer than the batch has. -/
theorem arguments_spec (fraction : Fraction) (one : Bool) (draw : Nat → List Nat) (b : Batch S X) (hb : Valid b)
    (hl : ∀ k, (draw k).length = k) (hd : ∀ k, ∀ i ∈ draw k, i < b.others.length) :
    ∃ s, arguments fraction one draw b = some s ∧
      ((one = true ∨ b.others.length ≤ size b.others.length fraction) ∧ s = b ∨
       one = false ∧ (s.others.length : Int) = size b.others.length fraction ∧ s.others.length < b.others.length) := by
  unfold arguments
  cases one with
  | true => exact ⟨b, rfl, .inl ⟨.inl rfl, rfl⟩⟩
  | false =>
    rw [if_neg (by decide)]
    by_cases h : size b.others.length fraction < b.others.length
    · rw [if_pos h]
      obtain ⟨s, h1⟩ := subsample_total b hb (draw (size b.others.length fraction).toNat) (hd _)
      have h2 := (windows_kept b s _ h1).2.1
      have h0 : 0 ≤ size b.others.length fraction := by
        cases fraction with
        | absolute k => exact Int.natCast_nonneg k
        | relative q => have := (size_spec b.others.length q 0).1; omega
      rw [hl] at h2
      exact ⟨s, h1, .inr ⟨rfl, by omega, by omega⟩⟩
    · rw [if_neg h]; exact ⟨b, rfl, .inl ⟨.inr (by omega), rfl⟩⟩

/-- Windows of lengths 1, 2, 2; timesteps 2, 0, 2 selected. -/
example : (subsample (⟨[10, 10, 11, 11, 12], [(0, 1), (1, 2), (3, 2)], ['a', 'b', 'c']⟩ : Batch Nat Char) [2, 0, 2]).map
    (fun s => (s.states, s.horizons, s.others)) = some ([11, 12, 10, 11, 12], [(0, 2), (2, 1), (3, 2)], ['c', 'a', 'c']) := by decide

example : Valid (⟨[10, 10, 11, 11, 12], [(0, 1), (1, 2), (3, 2)], ['a', 'b', 'c']⟩ : Batch Nat Char) := by
  refine ⟨rfl, ?_⟩; decide

end Verif.Props.Subsample
