/-!
# Model of the optimizers and update modifiers

Models the `step` methods in `tensorforce/core/optimizers/`: `tf_optimizer.py` (147-195), `natural_gradient.py` (70-198),
`evolutionary.py` (52-157), `multi_step.py`, `clipping_step.py`, `subsampling_step.py`, `linesearch_step.py` with
`solvers/line_search.py` and `solvers/iterative.py`, `doublecheck_step.py`, `plus.py`, `global_optimizer.py`.

Simplifications: the trainable variables are one vector; arithmetic is exact (but see `Float`); the loss is a function of the batch and
the variables; hyperparameters have a fixed value during an update. What TensorFlow computes (gradients and slots of a Keras optimizer,
the natural gradient, the clipped update, random numbers, the sampled batch) is given by arbitrary functions.
-/

namespace Verif.Optim

abbrev Vec (n : Nat) := Fin n → Rat

namespace Vec

variable {n : Nat}

def zero : Vec n := fun _ => 0
def add (x y : Vec n) : Vec n := fun i => x i + y i
def sub (x y : Vec n) : Vec n := fun i => x i - y i
def neg (x : Vec n) : Vec n := fun i => - x i
def scale (a : Rat) (x : Vec n) : Vec n := fun i => a * x i

end Vec

open Vec

/-- Trainable variables, the global variables of a global optimizer, and everything else (slots, random numbers). -/
structure World (σ : Type) (n : Nat) where
  vars : Vec n
  globals : Vec n
  rest : σ

inductive Opt (σ A : Type) (n : Nat) where
  | tf (apply : A → World σ n → World σ n)                              -- any change of variables and slots
  | natural (estimate : A → World σ n → Option (Vec n))                 -- `none`: step skipped
  | evolutionary (rate : Rat) (samples : Nat) (normal : σ → Vec n × σ)
  | multi (steps : Nat) (o : Opt σ A n)
  | clipping (clip : Vec n → Vec n) (o : Opt σ A n)
  | subsampling (sample : A → σ → A × σ) (o : Opt σ A n)
  | linesearch (limit : Nat) (factor : Rat) (o : Opt σ A n)
  | doublecheck (o : Opt σ A n)
  | plus (o1 o2 : Opt σ A n)
  | global (o : Opt σ A n)

variable {σ A : Type} {n : Nat}

/-- `variable.assign_add`. -/
def World.move (w : World σ n) (d : Vec n) : World σ n := { w with vars := add w.vars d }

/-- New world and returned deltas. -/
abbrev Result (σ : Type) (n : Nat) := World σ n × Vec n

/-! ## Line search -/

/-- Loop variables of line_search.py: `x`, `deltas`, `improvement`, `last_improvement`, and the world `fn_x` acts on. -/
structure Search (σ : Type) (n : Nat) where
  x : Vec n
  deltas : Vec n
  improvement : Rat
  last : Rat
  world : World σ n

/-- `evaluate_step`, linesearch_step.py 80-85. -/
def evaluate (loss : Vec n → Rat) (w : World σ n) (d : Vec n) : World σ n × Rat := (w.move d, loss (w.move d).vars)

/-- `start`, line_search.py 121-130. -/
def searchStart (loss : Vec n → Rat) (factor : Rat) (base zeroValue : Rat) (x : Vec n) (w : World σ n) : Search σ n :=
  let deltas := scale (factor - 1) x
  let r := evaluate loss w deltas
  ⟨x, deltas, base - r.2, base - zeroValue, r.1⟩

/-- `step`, line_search.py 147-155. -/
def searchStep (loss : Vec n → Rat) (factor : Rat) (base : Rat) (s : Search σ n) : Search σ n :=
  let deltas := scale factor s.deltas
  let r := evaluate loss s.world deltas
  ⟨add s.x s.deltas, deltas, base - r.2, s.improvement, r.1⟩

/-- `tf.while_loop` with `maximum_iterations` (iterative.py 68-71) and `next_step` (line_search.py 173). -/
def searchLoop (loss : Vec n → Rat) (factor : Rat) (base : Rat) : Nat → Search σ n → Search σ n
  | 0, s => s
  | k + 1, s => if s.last < s.improvement then searchLoop loss factor base k (searchStep loss factor base s) else s

/-- `end`, line_search.py 191-209. -/
def searchEnd (loss : Vec n → Rat) (s : Search σ n) : Result σ n :=
  if s.last ≤ s.improvement then (s.world, add s.x s.deltas) else ((evaluate loss s.world (neg s.deltas)).1, s.x)

/-- The line search of linesearch_step.py 67-98 after the inner step; `base` is the loss before it. -/
def search (loss : Vec n → Rat) (limit : Nat) (factor : Rat) (base : Rat) (r : Result σ n) : Result σ n :=
  if ∀ i, r.2 i = 0 then r
  else searchEnd loss (searchLoop loss factor base limit (searchStart loss factor base (loss r.1.vars) r.2 r.1))

/-! ## Evolutionary -/

/-- evolutionary.py 59-94. -/
def evolveOne (loss : Vec n → Rat) (rate : Rat) (normal : σ → Vec n × σ) (w : World σ n) : Result σ n :=
  let unperturbed := loss w.vars
  let z := normal w.rest
  let deltas := scale rate z.1
  let w := World.move { w with rest := z.2 } deltas
  if loss w.vars < unperturbed then (w, deltas) else (w.move (scale (-2) deltas), neg deltas)

/-- Loop body, evolutionary.py 100-138: world, `deltas`, `previous_perturbations`. -/
def evolveBody (loss : Vec n → Rat) (rate : Rat) (normal : σ → Vec n × σ) (unperturbed : Rat) (s : World σ n × Vec n × Vec n) :
    World σ n × Vec n × Vec n :=
  let z := normal s.1.rest
  let pert := scale rate z.1
  let w := World.move { s.1 with rest := z.2 } (sub pert s.2.2)
  let direction : Rat := if loss w.vars < unperturbed then 1 else -1
  (w, add s.2.1 (scale direction pert), pert)

def iterate {β : Type} (f : β → β) : Nat → β → β
  | 0, b => b
  | k + 1, b => iterate f k (f b)

/-- evolutionary.py 96-157. -/
def evolveMany (loss : Vec n → Rat) (rate : Rat) (samples : Nat) (normal : σ → Vec n × σ) (w : World σ n) : Result σ n :=
  let s := iterate (evolveBody loss rate normal (loss w.vars)) samples (w, Vec.zero, Vec.zero)
  let deltas := scale (1 / (samples : Rat)) s.2.1
  (s.1.move (sub deltas s.2.2), deltas)

/-! ## All optimizers -/

/-- Body of the loop in multi_step.py 48-54. -/
def multiBody (step : World σ n → Result σ n) (r : Result σ n) : Result σ n :=
  let s := step r.1
  (s.1, add r.2 s.2)

/-- clipping_step.py 58-88. -/
def clipped (clip : Vec n → Vec n) (r : Result σ n) : Result σ n := (r.1.move (sub (clip r.2) r.2), clip r.2)

/-- doublecheck_step.py 43-54; `before` is the loss before the step. -/
def checked (loss : Vec n → Rat) (before : Rat) (r : Result σ n) : Result σ n :=
  if loss r.1.vars < before then r else (r.1.move (neg r.2), Vec.zero)

/-- global_optimizer.py 47-67. -/
def globalised (r : Result σ n) : Result σ n :=
  let w := { r.1 with globals := add r.1.globals r.2 }
  let update := sub w.globals w.vars
  (w.move update, add r.2 update)

/-- `step`. -/
def Opt.run (loss : A → Vec n → Rat) : Opt σ A n → A → World σ n → Result σ n
  | .tf apply, a, w => let v := apply a w; (v, sub v.vars w.vars)                       -- tf_optimizer.py 150, 190, 195
  | .natural estimate, a, w => match estimate a w with                                  -- natural_gradient.py 161-198
    | some d => (w.move d, d)
    | none => (w, Vec.zero)
  | .evolutionary rate samples normal, a, w =>
    if samples = 1 then evolveOne (loss a) rate normal w else evolveMany (loss a) rate samples normal w
  | .multi steps o, a, w => iterate (multiBody (o.run loss a)) steps (w, Vec.zero)       -- multi_step.py 46-62
  | .clipping clip o, a, w => clipped clip (o.run loss a w)
  | .subsampling sample o, a, w => let s := sample a w.rest; o.run loss s.1 { w with rest := s.2 }   -- subsampling_step.py 54-94
  | .linesearch limit factor o, a, w => search (loss a) limit factor (loss a w.vars) (o.run loss a w)
  | .doublecheck o, a, w => checked (loss a) (loss a w.vars) (o.run loss a w)
  | .plus o1 o2, a, w => let r1 := o1.run loss a w; let r2 := o2.run loss a r1.1; (r2.1, add r1.2 r2.2)   -- plus.py 50-56
  | .global o, a, w => globalised (o.run loss a w)

end Verif.Optim
