import Verif.Optim.Model

/-!
# Model of the conjugate gradient solver

Models `tensorforce/core/optimizers/solvers/conjugate_gradient.py` (`start` 143-161, `step` 179-234, `next_step` 251-253) and the loop of
`solvers/iterative.py` 58-76. The values of all variables together are one vector; arithmetic is exact; `eps` is `util.epsilon`
(`util.py` 26), any positive number; the damping parameter has a fixed value.
-/

namespace Verif.Optim.Conj

open Vec

variable {n : Nat}

/-- Sum of products of the components. -/
def dot (x y : Vec n) : Rat := ((List.finRange n).map fun i => x i * y i).sum

/-- Loop variables. -/
structure State (n : Nat) where
  x : Vec n
  conjugate : Vec n
  residual : Vec n
  squared : Rat

def start (fn : Vec n → Vec n) (x b : Vec n) : State n :=
  let r := sub b (fn x)
  ⟨x, r, r, dot r r⟩

/-- Lines 179-195. -/
def damped (fn : Vec n → Vec n) (damping : Rat) (c : Vec n) : Vec n :=
  if damping = 0 then fn c else add (fn c) (scale damping c)

/-- Lines 206-210. -/
def guarded (eps cAc : Rat) : Rat := if cAc > 0 then cAc + eps else cAc - eps

def step (fn : Vec n → Vec n) (damping eps : Rat) (s : State n) : State n :=
  let Ac := damped fn damping s.conjugate
  let alpha := s.squared / guarded eps (dot s.conjugate Ac)
  let x := add s.x (scale alpha s.conjugate)
  let r := sub s.residual (scale alpha Ac)
  let squared := dot r r
  let beta := squared / (s.squared + eps)
  ⟨x, add r (scale beta s.conjugate), r, squared⟩

def loop (fn : Vec n → Vec n) (damping eps : Rat) : Nat → State n → State n
  | 0, s => s
  | k + 1, s => if s.squared ≥ eps then loop fn damping eps k (step fn damping eps s) else s

/-- `solve`; the result is the `x` of the last state. -/
def solve (fn : Vec n → Vec n) (damping eps : Rat) (limit : Nat) (x b : Vec n) : State n := loop fn damping eps limit (start fn x b)

/-! ## What it should do -/

structure Linear (fn : Vec n → Vec n) : Prop where
  add : ∀ x y, fn (Vec.add x y) = Vec.add (fn x) (fn y)
  scale : ∀ a x, fn (Vec.scale a x) = Vec.scale a (fn x)

/-- `b - (A + damping I) x`. -/
def trueResidual (fn : Vec n → Vec n) (damping : Rat) (b x : Vec n) : Vec n := fun i => b i - (fn x i + damping * x i)

/-- How many iterations are executed. -/
def iterations (fn : Vec n → Vec n) (damping eps : Rat) : Nat → State n → Nat
  | 0, _ => 0
  | k + 1, s => if s.squared ≥ eps then iterations fn damping eps k (step fn damping eps s) + 1 else 0

end Verif.Optim.Conj
