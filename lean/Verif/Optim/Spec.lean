import Verif.Optim.Model

/-! # What optimizer steps should satisfy -/

namespace Verif.Optim

open Vec

variable {σ A : Type} {n : Nat}

/-- The returned step is the change of the trainable variables. -/
def Reports (w : World σ n) (r : Result σ n) : Prop := r.1.vars = add w.vars r.2

/-- The multiple number `k` of a full step. -/
def multiple (factor : Rat) (x : Vec n) (k : Nat) : Vec n := scale (factor ^ k) x

/-- The first `j` from `from` on, but at most `fuel` later, whose successor is not better. -/
def turning (f : Nat → Rat) : Nat → Nat → Nat
  | 0, j => j
  | fuel + 1, j => if f (j + 1) < f j then turning f fuel (j + 1) else j

/-- The multiple a backtracking search with losses `f` ends with. -/
def kept (f : Nat → Rat) (limit : Nat) : Nat :=
  let j := turning f limit 0
  if f (j + 1) ≤ f j then j + 1 else j

/-- The random perturbations an evolutionary optimizer draws one after another. -/
def perturbations (rate : Rat) (normal : σ → Vec n × σ) : Nat → σ → List (Vec n)
  | 0, _ => []
  | k + 1, s => scale rate (normal s).1 :: perturbations rate normal k (normal s).2

/-- A perturbation turned in the direction of smaller loss. -/
def directed (loss : Vec n → Rat) (v p : Vec n) : Vec n := if loss (add v p) < loss v then p else neg p

end Verif.Optim
