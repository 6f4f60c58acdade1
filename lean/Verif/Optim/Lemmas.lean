import Verif.Optim.Spec

/-! # Lemmas about optimizer steps -/

namespace Verif.Optim

open Vec

variable {σ A : Type} {n : Nat}

theorem vec_ext {x y : Vec n} (h : ∀ i, x i = y i) : x = y := funext h

theorem reports_of {w : World σ n} {r : Result σ n} (h : ∀ i, r.1.vars i = w.vars i + r.2 i) : Reports w r := vec_ext h

theorem Reports.at {w : World σ n} {r : Result σ n} (h : Reports w r) (i : Fin n) : r.1.vars i = w.vars i + r.2 i := by
  rw [h]; rfl

/-! ## Line search -/

/-- Loop invariant: `x` is multiple `j`, `deltas` leads to the next one, where the variables are. -/
structure SearchInv (loss : Vec n → Rat) (factor base : Rat) (v x : Vec n) (j : Nat) (s : Search σ n) : Prop where
  point : s.x = multiple factor x j
  deltas : ∀ i, s.deltas i = multiple factor x (j + 1) i - multiple factor x j i
  vars : s.world.vars = add v (multiple factor x (j + 1))
  improvement : s.improvement = base - loss (add v (multiple factor x (j + 1)))
  last : s.last = base - loss (add v (multiple factor x j))

theorem multiple_zero (factor : Rat) (x : Vec n) : multiple factor x 0 = x := vec_ext fun i => by
  simp [multiple, scale]

theorem multiple_succ (factor : Rat) (x : Vec n) (j : Nat) (i : Fin n) : multiple factor x (j + 1) i = factor * multiple factor x j i := by
  simp only [multiple, scale, Rat.pow_succ]; grind

theorem searchStart_inv (loss : Vec n → Rat) (factor base : Rat) (v x : Vec n) (w : World σ n) (hw : w.vars = add v x) :
    SearchInv loss factor base v x 0 (searchStart loss factor base (loss w.vars) x w) := by
  have hv : (w.move (scale (factor - 1) x)).vars = add v (multiple factor x 1) := vec_ext fun i => by
    simp only [World.move, hw, add, scale, multiple_succ, multiple_zero]; grind
  refine ⟨(multiple_zero _ _).symm, fun i => ?_, hv, ?_, ?_⟩
  · simp only [searchStart, scale, multiple_succ, multiple_zero]; grind
  · simp only [searchStart, evaluate, hv]
  · simp only [searchStart, hw, multiple_zero]

theorem searchStep_inv (loss : Vec n → Rat) (factor base : Rat) (v x : Vec n) (j : Nat) (s : Search σ n)
    (h : SearchInv loss factor base v x j s) : SearchInv loss factor base v x (j + 1) (searchStep loss factor base s) := by
  have hv : (s.world.move (scale factor s.deltas)).vars = add v (multiple factor x (j + 2)) := vec_ext fun i => by
    simp only [World.move, h.vars, add, scale, h.deltas, multiple_succ]; grind
  refine ⟨vec_ext fun i => ?_, fun i => ?_, hv, ?_, h.improvement⟩
  · simp only [searchStep, add, h.deltas, h.point]; grind
  · simp only [searchStep, scale, h.deltas, multiple_succ]; grind
  · simp only [searchStep, evaluate, hv]

theorem searchLoop_inv (loss : Vec n → Rat) (factor base : Rat) (v x : Vec n) (fuel j : Nat) (s : Search σ n)
    (h : SearchInv loss factor base v x j s) :
    SearchInv loss factor base v x (turning (fun k => loss (add v (multiple factor x k))) fuel j) (searchLoop loss factor base fuel s) := by
  induction fuel generalizing j s with
  | zero => exact h
  | succ fuel ih =>
    simp only [searchLoop, turning, h.improvement, h.last]
    by_cases hc : loss (add v (multiple factor x (j + 1))) < loss (add v (multiple factor x j))
    · rw [if_pos hc, if_pos (by grind)]
      exact ih (j + 1) _ (searchStep_inv loss factor base v x j s h)
    · rw [if_neg hc, if_neg (by grind)]
      exact h

/-- The search ends at the kept multiple, and the variables with it. -/
theorem search_kept (loss : Vec n → Rat) (limit : Nat) (factor base : Rat) (v : Vec n) (r : Result σ n) (hr : r.1.vars = add v r.2)
    (hz : ¬ ∀ i, r.2 i = 0) :
    let k := kept (fun k => loss (add v (multiple factor r.2 k))) limit
    (search loss limit factor base r).2 = multiple factor r.2 k ∧ (search loss limit factor base r).1.vars = add v (multiple factor r.2 k) := by
  have hI := searchLoop_inv loss factor base v r.2 limit 0 _ (searchStart_inv loss factor base v r.2 r.1 hr)
  simp only [search, if_neg hz, kept]
  generalize turning (fun k => loss (add v (multiple factor r.2 k))) limit 0 = j at hI
  generalize searchLoop loss factor base limit (searchStart loss factor base (loss r.1.vars) r.2 r.1) = s at hI
  by_cases hc : loss (add v (multiple factor r.2 (j + 1))) ≤ loss (add v (multiple factor r.2 j))
  · rw [if_pos hc, searchEnd, if_pos (by rw [hI.improvement, hI.last]; grind)]
    exact ⟨vec_ext fun i => by simp only [add, hI.point, hI.deltas]; grind, hI.vars⟩
  · rw [if_neg hc, searchEnd, if_neg (by rw [hI.improvement, hI.last]; grind)]
    exact ⟨hI.point, vec_ext fun i => by simp only [evaluate, World.move, add, neg, hI.vars, hI.deltas]; grind⟩

theorem search_rest (loss : Vec n → Rat) (limit : Nat) (factor base : Rat) (v : Vec n) (r : Result σ n) (hr : r.1.vars = add v r.2) :
    (search loss limit factor base r).1.vars = add v (search loss limit factor base r).2 := by
  by_cases hz : ∀ i, r.2 i = 0
  · simp only [search, if_pos hz, hr]
  · have h := search_kept loss limit factor base v r hr hz
    rw [h.1, h.2]

theorem turning_range (f : Nat → Rat) (fuel j : Nat) :
    j ≤ turning f fuel j ∧ turning f fuel j ≤ j + fuel ∧ (∀ i, j ≤ i → i < turning f fuel j → f (i + 1) < f i) ∧
    (turning f fuel j < j + fuel → ¬ f (turning f fuel j + 1) < f (turning f fuel j)) := by
  induction fuel generalizing j with
  | zero => simp only [turning]; refine ⟨by omega, by omega, fun i h1 h2 => by omega, fun h => by omega⟩
  | succ fuel ih =>
    unfold turning
    split
    case isTrue h =>
      obtain ⟨h1, h2, h3, h4⟩ := ih (j + 1)
      refine ⟨by omega, by omega, fun i hi hlt => ?_, fun hlt => h4 (by omega)⟩
      by_cases he : i = j
      · rw [he]; exact h
      · exact h3 i (by omega) hlt
    case isFalse h => exact ⟨by omega, by omega, fun i h1 h2 => by omega, fun _ => h⟩

theorem descending (f : Nat → Rat) (j : Nat) (h : ∀ i, i < j → f (i + 1) < f i) (i : Nat) (hi : i ≤ j) : f j ≤ f i := by
  induction j with
  | zero => have : i = 0 := by omega
            rw [this]; exact Rat.le_refl
  | succ j ih =>
    by_cases he : i = j + 1
    · rw [he]; exact Rat.le_refl
    · have a := ih (fun i hi => h i (by omega)) (by omega)
      have b := h j (by omega)
      grind

theorem kept_le (f : Nat → Rat) (limit : Nat) : kept f limit ≤ turning f limit 0 + 1 := by
  simp only [kept]; split <;> omega

/-! ## Evolutionary -/

theorem evolveBody_inv (loss : Vec n → Rat) (rate : Rat) (normal : σ → Vec n × σ) (u : Rat) (v : Vec n) (s : World σ n × Vec n × Vec n)
    (h : s.1.vars = add v s.2.2) : (evolveBody loss rate normal u s).1.vars = add v (evolveBody loss rate normal u s).2.2 :=
  vec_ext fun i => by simp only [evolveBody, World.move, add, sub, scale, h]; grind

theorem directed_eq (loss : Vec n → Rat) (v p : Vec n) (i : Fin n) :
    scale (if loss (add v p) < loss v then 1 else -1) p i = directed loss v p i := by
  unfold directed scale
  split
  · grind
  · simp only [neg]; grind

theorem evolveBody_sum (loss : Vec n → Rat) (rate : Rat) (normal : σ → Vec n × σ) (v : Vec n) (k : Nat) (s : World σ n × Vec n × Vec n)
    (h : s.1.vars = add v s.2.2) (i : Fin n) :
    (iterate (evolveBody loss rate normal (loss v)) k s).2.1 i =
      s.2.1 i + ((perturbations rate normal k s.1.rest).map fun p => directed loss v p i).sum := by
  induction k generalizing s with
  | zero => simp only [iterate, perturbations, List.map_nil, List.sum_nil]; grind
  | succ k ih =>
    have hv : add s.1.vars (sub (scale rate (normal s.1.rest).1) s.2.2) = add v (scale rate (normal s.1.rest).1) :=
      vec_ext fun i => by simp only [h, add, sub]; grind
    rw [iterate, ih _ (evolveBody_inv loss rate normal (loss v) v s h)]
    simp only [evolveBody, perturbations, World.move, List.map_cons, List.sum_cons, hv, add]
    rw [directed_eq]
    generalize ((perturbations rate normal k (normal s.1.rest).2).map fun p => directed loss v p i).sum = t
    grind

theorem iterate_inv {β : Type} (P : β → Prop) (f : β → β) (hf : ∀ b, P b → P (f b)) (k : Nat) (b : β) (hb : P b) : P (iterate f k b) := by
  induction k generalizing b with
  | zero => exact hb
  | succ k ih => exact ih _ (hf b hb)

theorem evolve_reports (loss : Vec n → Rat) (rate : Rat) (samples : Nat) (normal : σ → Vec n × σ) (w : World σ n) :
    Reports w (evolveOne loss rate normal w) ∧ Reports w (evolveMany loss rate samples normal w) := by
  constructor
  · unfold evolveOne
    dsimp only
    split
    · exact reports_of fun i => by simp only [World.move, add]
    · exact reports_of fun i => by simp only [World.move, add, scale, neg]; grind
  · have h := iterate_inv (fun s : World σ n × Vec n × Vec n => s.1.vars = add w.vars s.2.2) _
      (evolveBody_inv loss rate normal (loss w.vars) w.vars) samples (w, Vec.zero, Vec.zero)
      (vec_ext fun i => by simp only [add, Vec.zero]; grind)
    exact reports_of fun i => by simp only [evolveMany, World.move, add, sub, h]; grind

end Verif.Optim
