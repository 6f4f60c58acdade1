import Verif.Mix.Lemmas
import Mathlib.Algebra.Order.Field.Rat

/-!
# C143: self-attention averages the values of all positions
-/

namespace Verif.Props.Attention
open Verif.Mix

variable {K : Type} [Field K] [LinearOrder K] {N : Numeric K}

/-- For positive sizes, each position has a row of the announced size, which is the average of the values of all positions with weights proportional to the
exponential function of the scores, plus the bias. -/
theorem average_partial [IsStrictOrderedRing K] (F : Facts N) (l : Attention K) (h : Positive l) (hf : Fits l) (x : List (List K)) :
    ∃ out, l.apply N x = .ok out ∧ out.length = x.length ∧
      ∀ (i : Nat) (p row : List K), x[i]? = some p → out[i]? = some row → row.length = l.size ∧
        ∃ w, Attends N l x p w ∧ ∀ c < l.size, row[c]? = some (inner w (feature l x c) + biasAt l c) := by
  refine ⟨x.map (rowOf N l x), apply_eq h x, List.length_map _, fun i p row hp hr => ?_⟩
  rw [List.getElem?_map, hp] at hr
  rw [← Option.some.inj hr]
  have hx : x ≠ [] := fun hn => by rw [hn] at hp; cases hp
  exact ⟨row_length hf x p, weightsOf N l x p, attends F h x hx p, fun c hc => row_get hf x p c hc⟩

/-- Functions with `2 ^ x` for integers `x`, and square roots of 1 and 4. -/
def sample : Numeric ℚ := ⟨fun x => 2 ^ x.num, fun x => x, fun x => if x = 4 then 2 else x⟩

/-- Two positions, whose scores are 0 and 1 for the second. -/
def layer : Attention ℚ := ⟨1, none, fun p => [p.getD 0 0], fun p => [p.getD 0 0], fun p => [p.getD 1 0], none⟩

example : layer.apply sample [[0, 3], [1, 6]] = .ok [[9 / 2], [5]] := by decide +kernel
example : Positive layer ∧ Fits layer := ⟨⟨by decide, nofun⟩, nofun⟩

/-- Hence no row leaves the range of the values. -/
theorem bounded [IsStrictOrderedRing K] (F : Facts N) (l : Attention K) (h : Positive l) (hb : l.bias = none) (x : List (List K)) (out : List (List K))
    (ho : l.apply N x = .ok out) (c : Nat) (hc : c < l.size) (lo hi : K) (hv : ∀ u ∈ feature l x c, lo ≤ u ∧ u ≤ hi) :
    ∀ row ∈ out, ∃ u, row[c]? = some u ∧ lo ≤ u ∧ u ≤ hi := by
  intro row hr
  rw [apply_eq h x] at ho
  rw [← Except.ok.inj ho] at hr
  obtain ⟨p, hp, rfl⟩ := List.mem_map.1 hr
  have hx : x ≠ [] := fun hn => by rw [hn] at hp; cases hp
  have hf : Fits l := fun b h => by rw [hb] at h; cases h
  obtain ⟨h1, h2, h3, _⟩ := attends F h x hx p
  have hl : (weightsOf N l x p).length = (feature l x c).length := by rw [h1]; exact (List.length_map _).symm
  obtain ⟨g1, g2⟩ := inner_bounds _ _ hl h2 lo hi hv
  rw [h3, mul_one] at g1 g2
  refine ⟨_, row_get hf x p c hc, ?_⟩
  unfold biasAt
  rw [hb, add_zero]
  exact ⟨g1, g2⟩

example : (layer.apply sample [[0, 3], [1, 6]]).toOption.map (fun o => o.flatten.all (fun u => decide (3 ≤ u) && decide (u ≤ 6))) = some true := by
  decide +kernel

/-- The same values everywhere are kept. -/
theorem constant [IsStrictOrderedRing K] (F : Facts N) (l : Attention K) (h : Positive l) (hb : l.bias = none) (x : List (List K)) (out : List (List K))
    (ho : l.apply N x = .ok out) (c : Nat) (hc : c < l.size) (v : K) (hv : ∀ u ∈ feature l x c, u = v) : ∀ row ∈ out, row[c]? = some v := by
  intro row hr
  obtain ⟨u, hu, h1, h2⟩ := bounded F l h hb x out ho c hc v v (fun u hu => by rw [hv u hu]; exact ⟨le_refl _, le_refl _⟩) row hr
  rw [hu, le_antisymm h2 h1]

example : layer.apply sample [[0, 3], [1, 3], [5, 3]] = .ok [[3], [3], [3]] := by decide +kernel

/-- The order of positions has no effect on the row of a position. -/
theorem permuted (l : Attention K) (x y : List (List K)) (h : x.Perm y) :
    (∀ e, l.apply N x = .error e ↔ l.apply N y = .error e) ∧
    ∀ out out', l.apply N x = .ok out → l.apply N y = .ok out' → (x.zip out).Perm (y.zip out') := by
  unfold Attention.apply
  by_cases hw : l.width = 0
  · rw [if_pos hw, if_pos hw]
    exact ⟨fun e => Iff.rfl, fun _ _ h => nomatch h⟩
  · rw [if_neg hw, if_neg hw]
    by_cases hs : l.size = 0
    · rw [if_pos hs, if_pos hs]
      exact ⟨fun e => Iff.rfl, fun _ _ h => nomatch h⟩
    · rw [if_neg hs, if_neg hs]
      refine ⟨fun e => ⟨nofun, nofun⟩, fun out out' h1 h2 => ?_⟩
      have e1 : out = x.map (rowOf N l x) := (Except.ok.inj h1).symm
      have e2 : out' = y.map (rowOf N l x) := by
        rw [← Except.ok.inj h2]
        exact List.map_congr_left fun p _ => (row_perm l h p).symm
      rw [e1, e2]
      have hz : ∀ z : List (List K), z.zip (z.map (rowOf N l x)) = z.map (fun p => (p, rowOf N l x p)) := by
        intro z
        induction z with
        | nil => rfl
        | cons p z ih => rw [List.map_cons, List.zip_cons_cons, ih, List.map_cons]
      rw [hz, hz]
      exact h.map _

example : layer.apply sample [[1, 6], [0, 3]] = .ok [[5], [9 / 2]] := by decide +kernel

/-- Inputs have one or two axes of positions. -/
theorem rank_accepted (r : Nat) : checkRank r = .ok () ↔ r = 2 ∨ r = 3 := by
  unfold checkRank
  by_cases h1 : r ≤ 1
  · rw [if_pos h1]
    exact ⟨nofun, fun h => by omega⟩
  · rw [if_neg h1]
    by_cases h2 : 3 < r
    · rw [if_pos h2]
      exact ⟨nofun, fun h => by omega⟩
    · rw [if_neg h2]
      exact ⟨fun _ => by omega, fun _ => rfl⟩

/-- Others are refused by Tensorforce. -/
theorem rank_rejected (r : Nat) (h : r ≠ 2) (h' : r ≠ 3) : checkRank r = .error .tensorforce := by
  unfold checkRank
  by_cases h1 : r ≤ 1
  · rw [if_pos h1]
  · rw [if_neg h1, if_pos (by omega)]

example : checkRank 4 = .error .tensorforce := rfl

/-- The documented size 0 always fails. -/
theorem size_violation (l : Attention K) (h : l.size = 0) (x : List (List K)) : l.apply N x = .error .tensorflow := by
  unfold Attention.apply
  by_cases hw : l.width = 0
  · rw [if_pos hw]
  · rw [if_neg hw, if_pos h]

example : (⟨0, none, id, id, id, none⟩ : Attention K).size = 0 := rfl

/-- Attention size 0, which is not documented, always fails as well. -/
theorem attention_rejected (l : Attention K) (h : l.attentionSize = some 0) (x : List (List K)) : l.apply N x = .error .tensorflow := by
  unfold Attention.apply Attention.width
  rw [h]
  exact if_pos rfl

example : (⟨2, some 0, id, id, id, none⟩ : Attention K).attentionSize = some 0 := rfl

end Verif.Props.Attention
