import Verif.Optim.Lemmas

/-! # Properties of optimizers and update modifiers (C32, C33, C34) -/

namespace Verif.Props.Optim

open Verif.Optim Vec

variable {σ A : Type} {n : Nat}

/-! ## C32 -/

/-- C32: the step returned by any nesting of modifiers around any optimizers is the change of the trainable variables, for every batch
and loss. Missing: rounding of floats. -/
theorem step_reported_partial (loss : A → Vec n → Rat) (o : Opt σ A n) (a : A) (w : World σ n) : Reports w (o.run loss a w) := by
  induction o generalizing a w with
  | tf apply => exact reports_of fun i => by simp only [Opt.run, sub]; grind
  | natural estimate =>
    simp only [Opt.run]
    split
    · exact reports_of fun i => by simp only [World.move, add]
    · exact reports_of fun i => by simp only [Vec.zero]; grind
  | evolutionary rate samples normal =>
    simp only [Opt.run]
    split
    · exact (evolve_reports (loss a) rate 1 normal w).1
    · exact (evolve_reports (loss a) rate samples normal w).2
  | multi steps o ih =>
    refine iterate_inv (Reports w) _ (fun r hr => reports_of fun i => ?_) steps _ (reports_of fun i => ?_)
    · simp only [multiBody, add, (ih a r.1).at i, hr.at i]; grind
    · simp only [Vec.zero]; grind
  | clipping clip o ih =>
    exact reports_of fun i => by simp only [Opt.run, clipped, World.move, add, sub, (ih a w).at i]; grind
  | subsampling sample o ih => exact ih _ _
  | linesearch limit factor o ih => exact search_rest (loss a) limit factor (loss a w.vars) w.vars _ (ih a w)
  | doublecheck o ih =>
    simp only [Opt.run, checked]
    split
    · exact ih a w
    · exact reports_of fun i => by simp only [World.move, add, neg, Vec.zero, (ih a w).at i]; grind
  | plus o1 o2 ih1 ih2 =>
    exact reports_of fun i => by simp only [Opt.run, add, (ih2 a (o1.run loss a w).1).at i, (ih1 a w).at i]; grind
  | global o ih =>
    exact reports_of fun i => by simp only [Opt.run, globalised, World.move, add, sub, (ih a w).at i]; grind

/-- The global variables receive the local step, and the local variables end equal to them. -/
theorem global_synchronised (loss : A → Vec n → Rat) (o : Opt σ A n) (a : A) (w : World σ n) :
    let r := o.run loss a w
    let g := (Opt.global o).run loss a w
    g.1.globals = add r.1.globals r.2 ∧ g.1.vars = g.1.globals := by
  refine ⟨rfl, vec_ext fun i => ?_⟩
  simp only [Opt.run, globalised, World.move, add, sub]; grind

/-- Multi-step applies the optimizer that many times in a row. -/
theorem multi_step_repeats (loss : A → Vec n → Rat) (o : Opt σ A n) (k : Nat) (a : A) (w : World σ n) :
    ((Opt.multi k o).run loss a w).1 = iterate (fun w => (o.run loss a w).1) k w := by
  simp only [Opt.run]
  generalize Vec.zero = d
  induction k generalizing w d with
  | zero => rfl
  | succ k ih => exact ih _ _

/-- Clipping moves the variables by exactly the clipped step of the inner optimizer. -/
theorem clipped_step (loss : A → Vec n → Rat) (clip : Vec n → Vec n) (o : Opt σ A n) (a : A) (w : World σ n) :
    ((Opt.clipping clip o).run loss a w).1.vars = add w.vars (clip (o.run loss a w).2) :=
  step_reported_partial loss (.clipping clip o) a w

/-- Both steps of an additive combination are taken, the second one from where the first one ends. -/
theorem plus_steps (loss : A → Vec n → Rat) (o1 o2 : Opt σ A n) (a : A) (w : World σ n) :
    ((Opt.plus o1 o2).run loss a w).1 = (o2.run loss a (o1.run loss a w).1).1 := rfl

/-- The evolutionary optimizer with one sample moves along the perturbation if that reduces the loss and against it otherwise. -/
theorem evolutionary_direction (loss : A → Vec n → Rat) (rate : Rat) (normal : σ → Vec n × σ) (a : A) (w : World σ n) :
    let d := scale rate (normal w.rest).1
    ((Opt.evolutionary rate 1 normal).run loss a w).2 = if loss a (add w.vars d) < loss a w.vars then d else neg d := by
  simp only [Opt.run, if_true]
  unfold evolveOne
  by_cases h : loss a (add w.vars (scale rate (normal w.rest).1)) < loss a w.vars
  · exact (congrArg Prod.snd (if_pos h)).trans (if_pos h).symm
  · exact (congrArg Prod.snd (if_neg h)).trans (if_neg h).symm

/-- The step of the evolutionary optimizer is the mean of the perturbations, each turned in the direction of smaller loss. -/
theorem evolutionary_mean (loss : A → Vec n → Rat) (rate : Rat) (samples : Nat) (normal : σ → Vec n × σ) (a : A) (w : World σ n) (i : Fin n) :
    ((Opt.evolutionary rate samples normal).run loss a w).2 i =
      1 / (samples : Rat) * ((perturbations rate normal samples w.rest).map fun p => directed (loss a) w.vars p i).sum := by
  by_cases h1 : samples = 1
  · subst h1
    rw [evolutionary_direction]
    simp only [perturbations, directed, List.map_cons, List.map_nil, List.sum_cons, List.sum_nil]
    grind
  · simp only [Opt.run, if_neg h1, evolveMany, scale]
    rw [evolveBody_sum (loss a) rate normal w.vars samples (w, Vec.zero, Vec.zero)
      (vec_ext fun i => by simp only [add, Vec.zero]; grind)]
    simp only [Vec.zero]; grind

/-- Gradient descent on the square, five steps, clipped. -/
def square (_ : Unit) (v : Vec 1) : Rat := v 0 * v 0
def descent (rate : Rat) : Opt Unit Unit 1 := .tf fun _ w => { w with vars := fun i => w.vars i - rate * (2 * w.vars i) }

example : ((Opt.clipping (fun d i => max (-1) (d i)) (.multi 2 (.linesearch 3 (1/2) (.doublecheck (descent (3/4)))))).run square ()
    ⟨fun _ => 4, fun _ => 0, ()⟩).2 0 = -1 := by decide +kernel

/-! ## C33 -/

/-- C33: after a double-checked step the loss is smaller or the variables are as before, for every inner optimizer. Missing: rounding of
floats (`Verif.Props.OptimFloat.reversal_violation`). -/
theorem doublecheck_partial (loss : A → Vec n → Rat) (o : Opt σ A n) (a : A) (w : World σ n) :
    let r := (Opt.doublecheck o).run loss a w
    loss a r.1.vars < loss a w.vars ∨ r.1.vars = w.vars ∧ r.2 = Vec.zero := by
  have h := step_reported_partial loss o a w
  simp only [Opt.run, checked]
  split
  case isTrue hc => exact .inl hc
  case isFalse hc =>
    exact .inr ⟨vec_ext fun i => by simp only [World.move, add, neg, h.at i]; grind, rfl⟩

/-- C33: the inner step is kept whenever it reduces the loss. -/
theorem doublecheck_keeps (loss : A → Vec n → Rat) (o : Opt σ A n) (a : A) (w : World σ n)
    (h : loss a (o.run loss a w).1.vars < loss a w.vars) : (Opt.doublecheck o).run loss a w = o.run loss a w := by
  simp only [Opt.run, checked, if_pos h]

example : ((Opt.doublecheck (descent (3/2))).run square () ⟨fun _ => 4, fun _ => 0, ()⟩).1.vars 0 = 4 ∧
    ((Opt.doublecheck (descent (3/4))).run square () ⟨fun _ => 4, fun _ => 0, ()⟩).1.vars 0 = -2 := by decide +kernel

/-! ## C34 -/

/-- C34: the line search keeps a multiple `factor ^ k` of the full step, `k` at most one more than the limit; its loss is not larger than
that of any multiple tried, in particular of the full step; the variables end at the start plus the kept step. Missing: `k` may exceed the
limit by one (`one_more_violation`). -/
theorem linesearch_partial (loss : A → Vec n → Rat) (limit : Nat) (factor : Rat) (o : Opt σ A n) (a : A) (w : World σ n) :
    let x := (o.run loss a w).2
    let r := (Opt.linesearch limit factor o).run loss a w
    ∃ tried k, k ≤ tried ∧ tried ≤ limit + 1 ∧ r.2 = multiple factor x k ∧ r.1.vars = add w.vars (multiple factor x k) ∧
      (∀ i, i ≤ tried → loss a r.1.vars ≤ loss a (add w.vars (multiple factor x i))) := by
  intro x r
  have h := step_reported_partial loss o a w
  by_cases hz : ∀ i, x i = 0
  · have hr : r = o.run loss a w := by simp only [r, Opt.run, search]; exact if_pos hz
    have e : ∀ k, multiple factor x k = x := fun k => vec_ext fun i => by simp only [multiple, scale, hz i]; grind
    refine ⟨0, 0, by omega, by omega, by rw [hr, e], by rw [hr, e]; exact h, fun i _ => ?_⟩
    rw [hr, e, h]
    exact Rat.le_refl
  · obtain ⟨k1, k2⟩ := search_kept (loss a) limit factor (loss a w.vars) w.vars _ h hz
    have t := turning_range (fun k => loss a (add w.vars (multiple factor x k))) limit 0
    have d := descending (fun k => loss a (add w.vars (multiple factor x k))) _ (fun i hi => t.2.2.1 i (by omega) hi)
    have t' : turning (fun k => loss a (add w.vars (multiple factor x k))) limit 0 ≤ limit := Nat.le_trans t.2.1 (Nat.le_of_eq (Nat.zero_add _))
    refine ⟨turning (fun k => loss a (add w.vars (multiple factor x k))) limit 0 + 1, _, ?_, Nat.succ_le_succ t', k1, k2, fun i hi => ?_⟩
    · exact kept_le _ _
    · have k2' : r.1.vars = _ := k2
      rw [k2']
      simp only [kept]
      generalize turning (fun k => loss a (add w.vars (multiple factor x k))) limit 0 = j at *
      split
      case isTrue hc =>
        by_cases he : i = j + 1
        · rw [he]; exact Rat.le_refl
        · exact Rat.le_trans hc (d i (by omega))
      case isFalse hc =>
        by_cases he : i = j + 1
        · rw [he]; have : loss a (add w.vars (multiple factor x j)) ≤ loss a (add w.vars (multiple factor x (j + 1))) := by
            have := Rat.not_le.mp hc
            exact Rat.le_of_lt this
          exact this
        · exact d i (by omega)

/-- C34: which multiple is kept: losses decrease up to `j`, and not further unless the limit is reached; the next multiple is kept if it is
not worse. -/
theorem linesearch_kept (loss : A → Vec n → Rat) (limit : Nat) (factor : Rat) (o : Opt σ A n) (a : A) (w : World σ n)
    (hz : ¬ ∀ i, (o.run loss a w).2 i = 0) :
    let f := fun k => loss a (add w.vars (multiple factor (o.run loss a w).2 k))
    ∃ j, j ≤ limit ∧ (∀ i, i < j → f (i + 1) < f i) ∧ (j < limit → f j ≤ f (j + 1)) ∧
      ((Opt.linesearch limit factor o).run loss a w).2 = multiple factor (o.run loss a w).2 (if f (j + 1) ≤ f j then j + 1 else j) := by
  intro f
  have h := step_reported_partial loss o a w
  obtain ⟨k1, -⟩ := search_kept (loss a) limit factor (loss a w.vars) w.vars _ h hz
  obtain ⟨-, t2, t3, t4⟩ := turning_range f limit 0
  exact ⟨turning f limit 0, by omega, fun i hi => t3 i (by omega) hi, fun hj => Rat.not_lt.mp (t4 (by omega)), k1⟩

/-- C34: the kept step is never worse than the full step. -/
theorem linesearch_full (loss : A → Vec n → Rat) (limit : Nat) (factor : Rat) (o : Opt σ A n) (a : A) (w : World σ n) :
    loss a ((Opt.linesearch limit factor o).run loss a w).1.vars ≤ loss a (o.run loss a w).1.vars := by
  obtain ⟨t, k, -, -, -, -, h⟩ := linesearch_partial loss limit factor o a w
  have := h 0 (by omega)
  rw [multiple_zero, ← step_reported_partial loss o a w] at this
  exact this

/-- C34: with limit 1 and a loss that prefers small steps, the second multiple is kept. -/
theorem one_more_violation : ((Opt.linesearch 1 (1/2) (.tf fun _ w => { w with vars := fun _ => 8 })).run square ()
    ⟨fun _ => 0, fun _ => 0, ()⟩ : Result Unit 1).2 0 = 2 := by decide +kernel

/-- The line search itself may end with a larger loss than before the step: it compares multiples with each other only. -/
theorem worse_than_start_violation : ∃ (o : Opt Unit Unit 1) (w : World Unit 1),
    square () w.vars < square () ((Opt.linesearch 5 (1/2) o).run square () w).1.vars :=
  ⟨.tf fun _ w => { w with vars := fun _ => 8 }, ⟨fun _ => 0, fun _ => 0, ()⟩, by decide +kernel⟩

end Verif.Props.Optim
