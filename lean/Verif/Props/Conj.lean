import Verif.Optim.Conj

/-! # Properties of the conjugate gradient solver (C37) -/

namespace Verif.Props.Conj

open Verif.Optim Verif.Optim.Conj Vec

variable {n : Nat}

theorem damped_apply (fn : Vec n → Vec n) (damping : Rat) (c : Vec n) (i : Fin n) :
    damped fn damping c i = fn c i + damping * c i := by
  unfold damped
  split
  case isTrue h => rw [h]; grind
  case isFalse h => rfl

/-- What the residual differs by when the solver starts at `x0`: `start` leaves the damping out. -/
def Tracks (fn : Vec n → Vec n) (damping : Rat) (b x0 : Vec n) (s : State n) : Prop :=
  (∀ i, s.residual i = trueResidual fn damping b s.x i + damping * x0 i) ∧ s.squared = dot s.residual s.residual

theorem start_tracks (fn : Vec n → Vec n) (damping : Rat) (b x0 : Vec n) : Tracks fn damping b x0 (start fn x0 b) :=
  ⟨fun i => by simp only [start, sub, trueResidual]; grind, rfl⟩

theorem step_tracks {fn : Vec n → Vec n} (hl : Linear fn) (damping eps : Rat) (b x0 : Vec n) (s : State n)
    (h : Tracks fn damping b x0 s) : Tracks fn damping b x0 (step fn damping eps s) := by
  refine ⟨fun i => ?_, rfl⟩
  simp only [step, sub, scale, damped_apply, h.1 i, trueResidual, hl.add, hl.scale, add]
  grind

theorem loop_tracks {fn : Vec n → Vec n} (hl : Linear fn) (damping eps : Rat) (b x0 : Vec n) (limit : Nat) (s : State n)
    (h : Tracks fn damping b x0 s) : Tracks fn damping b x0 (loop fn damping eps limit s) := by
  induction limit generalizing s with
  | zero => exact h
  | succ k ih =>
    unfold loop
    split
    · exact ih _ (step_tracks hl damping eps b x0 s h)
    · exact h

/-- C37: after any number of iterations the tracked residual is the true residual, for every linear operator, right-hand side, damping and
iteration limit, if the solver starts at zero (as in natural_gradient.py 134-142, its only use) or without damping. Missing: other starting
points with damping (`damping_violation`); rounding. -/
theorem residual_partial {fn : Vec n → Vec n} (hl : Linear fn) (damping eps : Rat) (b x0 : Vec n) (h0 : x0 = Vec.zero ∨ damping = 0)
    (limit : Nat) :
    let s := solve fn damping eps limit x0 b
    s.residual = trueResidual fn damping b s.x ∧ s.squared = dot (trueResidual fn damping b s.x) (trueResidual fn damping b s.x) := by
  intro s
  have h := loop_tracks hl damping eps b x0 limit _ (start_tracks fn damping b x0)
  have h' : Tracks fn damping b x0 s := h
  have h1 : ∀ i, damping * x0 i = 0 := fun i => by
    rcases h0 with h0 | h0
    · rw [h0]; simp only [Vec.zero]; grind
    · rw [h0]; grind
  have e : s.residual = trueResidual fn damping b s.x := funext fun i => by
    rw [h'.1 i, h1 i]; grind
  exact ⟨e, by rw [← e]; exact h'.2⟩

/-- C37: in general the tracked residual is off by `damping * x0`, throughout. -/
theorem residual_offset {fn : Vec n → Vec n} (hl : Linear fn) (damping eps : Rat) (b x0 : Vec n) (limit : Nat) :
    let s := solve fn damping eps limit x0 b
    ∀ i, s.residual i = trueResidual fn damping b s.x i + damping * x0 i :=
  (loop_tracks hl damping eps b x0 limit _ (start_tracks fn damping b x0)).1

/-- C37: the offset is never made up for: with damping and another starting point the tracked residual is never the true one. -/
theorem damping_violation {fn : Vec n → Vec n} (hl : Linear fn) (damping eps : Rat) (b x0 : Vec n) (i : Fin n) (hd : damping ≠ 0)
    (hx : x0 i ≠ 0) (limit : Nat) :
    let s := solve fn damping eps limit x0 b
    s.residual ≠ trueResidual fn damping b s.x := by
  intro s he
  have h := residual_offset hl damping eps b x0 limit i
  have h' : s.residual i = trueResidual fn damping b s.x i := by rw [he]
  have : damping * x0 i = 0 := by grind
  rcases Rat.mul_eq_zero.mp this with h | h
  · exact hd h
  · exact hx h

theorem stop_of_few (fn : Vec n → Vec n) (damping eps : Rat) (limit : Nat) (s : State n)
    (h : iterations fn damping eps limit s < limit) : (loop fn damping eps limit s).squared < eps := by
  induction limit generalizing s with
  | zero => omega
  | succ k ih =>
    simp only [iterations] at h
    unfold loop
    split
    case isTrue hc => rw [if_pos hc] at h; exact ih _ (by omega)
    case isFalse hc => exact Rat.not_le.mp hc

/-- C37, stopping test: if the solver stops before its limit, the squared true residual is below epsilon. -/
theorem stops_small {fn : Vec n → Vec n} (hl : Linear fn) (damping eps : Rat) (b : Vec n) (limit : Nat)
    (h : iterations fn damping eps limit (start fn Vec.zero b) < limit) :
    let s := solve fn damping eps limit Vec.zero b
    dot (trueResidual fn damping b s.x) (trueResidual fn damping b s.x) < eps := by
  intro s
  have := stop_of_few fn damping eps limit _ h
  rw [← (residual_partial hl damping eps b Vec.zero (.inl rfl) limit).2]
  exact this

/-- C37, stopping test: while the squared true residual is at least epsilon and the limit is not reached, the solver goes on. -/
theorem goes_on (fn : Vec n → Vec n) (damping eps : Rat) (limit : Nat) (s : State n)
    (h : (loop fn damping eps limit s).squared ≥ eps) : iterations fn damping eps limit s = limit := by
  have hle : ∀ k s, iterations fn damping eps k s ≤ k := by
    intro k
    induction k with
    | zero => intro s; exact Nat.le_refl _
    | succ k ih =>
      intro s
      have := ih (step fn damping eps s)
      unfold iterations
      split <;> omega
  rcases Nat.lt_or_ge (iterations fn damping eps limit s) limit with h' | h'
  · have := stop_of_few fn damping eps limit s h'
    exact absurd h (Rat.not_le.mpr this)
  · have := hle limit s; omega

theorem sum_nonneg (l : List Rat) (h : ∀ q ∈ l, 0 ≤ q) : 0 ≤ l.sum := by
  induction l with
  | nil => decide
  | cons q l ih =>
    have h1 := h q List.mem_cons_self
    have h2 := ih fun p hp => h p (List.mem_cons_of_mem _ hp)
    rw [List.sum_cons]; grind

theorem square_nonneg (q : Rat) : 0 ≤ q * q := by
  rcases Rat.le_total (a := 0) (b := q) with h | h
  · exact Rat.mul_nonneg h h
  · have := Rat.mul_nonneg (a := -q) (b := -q) (by grind) (by grind)
    grind

theorem dot_self_nonneg (x : Vec n) : 0 ≤ dot x x := sum_nonneg _ fun q hq => by
  obtain ⟨i, -, rfl⟩ := List.mem_map.mp hq
  exact square_nonneg _

/-- No division by zero: both denominators are nonzero in every state with a squared residual. -/
theorem denominators (eps cAc : Rat) (he : 0 < eps) (x : Vec n) : guarded eps cAc ≠ 0 ∧ dot x x + eps ≠ 0 := by
  have := dot_self_nonneg x
  constructor
  · unfold guarded
    split <;> grind
  · grind

/-- A right-hand side of zero is solved by zero at once. -/
theorem zero_solved {fn : Vec n → Vec n} (hl : Linear fn) (damping eps : Rat) (he : 0 < eps) (limit : Nat) :
    (solve fn damping eps limit Vec.zero Vec.zero).x = Vec.zero := by
  have hz : fn Vec.zero = Vec.zero := by
    have := hl.scale 0 Vec.zero
    have e : Vec.scale 0 (Vec.zero : Vec n) = Vec.zero := funext fun i => by simp only [Vec.scale, Vec.zero]; grind
    rw [e] at this
    rw [this]; exact funext fun i => by simp only [Vec.scale, Vec.zero]; grind
  have hr : (start fn Vec.zero (Vec.zero : Vec n)).squared = 0 := by
    have e : Vec.sub (Vec.zero : Vec n) (fn Vec.zero) = Vec.zero := by
      rw [hz]; exact funext fun i => by simp only [Vec.sub, Vec.zero]; grind
    simp only [start, e, dot, Vec.zero]
    generalize List.finRange n = l
    induction l with
    | nil => rfl
    | cons a l ih => rw [List.map_cons, List.sum_cons, ih]; grind
  unfold solve
  cases limit with
  | zero => rfl
  | succ k => unfold loop; rw [if_neg (by rw [hr]; grind)]; rfl

def matrix : Vec 2 → Vec 2 := fun x i => if i = 0 then 2 * x 0 + x 1 else x 0 + 3 * x 1

theorem matrix_linear : Linear matrix :=
  ⟨fun x y => funext fun i => by simp only [matrix, add]; split <;> grind,
   fun a x => funext fun i => by simp only [matrix, scale]; split <;> grind⟩

/-- Two iterations reduce the squared residual from 2 below a millionth. -/
example : (solve matrix (1/2) (1/1000000) 2 Vec.zero (fun _ => 1)).squared < 1/1000000 ∧
    iterations matrix (1/2) (1/1000000) 9 (start matrix Vec.zero fun _ => 1) = 2 := by decide +kernel

/-- Started at the exact solution of the damped system, the solver walks away from it. -/
theorem leaves_solution_violation : ∃ b x0 : Vec 2, trueResidual matrix 1 b x0 = Vec.zero ∧
    1/100 < dot (trueResidual matrix 1 b (solve matrix 1 (1/1000000) 5 x0 b).x) (trueResidual matrix 1 b (solve matrix 1 (1/1000000) 5 x0 b).x) :=
  ⟨fun i => if i = 0 then 4 else 5, fun _ => 1, funext fun i => by
    simp only [trueResidual, matrix, Vec.zero]
    split <;> grind, by decide +kernel⟩

end Verif.Props.Conj
