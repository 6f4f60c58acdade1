/-!
# Update modifiers with rounded arithmetic

The steps of `Verif.Optim.Model` for one variable, with a rounding function after each operation: `tf_optimizer.py` 190-195 (reported
deltas), `doublecheck_step.py` 43-54, `clipping_step.py` 82-88, `synchronization.py` 91-93. `round32` is rounding to 24 significant bits,
ties to even (single precision without overflow and subnormal numbers).
-/

namespace Verif.Optim.Float

/-- Reported delta of a TensorFlow optimizer that changes `v` into `v'`. -/
def reported (rnd : Rat → Rat) (v v' : Rat) : Rat := rnd (v' - v)

/-- Double-check around it: variable and returned delta. -/
def doublecheck (rnd : Rat → Rat) (loss : Rat → Rat) (v v' : Rat) : Rat × Rat :=
  if loss v' < loss v then (v', reported rnd v v') else (rnd (v' + - reported rnd v v'), 0)

/-- Synchronization with a weight that is not constant. -/
def synchronize (rnd : Rat → Rat) (weight source target : Rat) : Rat := rnd (target + rnd (weight * rnd (source - target)))

/-- `2 ^ e` for an integer exponent. -/
def pow2 (e : Int) : Rat := if 0 ≤ e then ((2 ^ e.toNat : Nat) : Rat) else 1 / ((2 ^ (-e).toNat : Nat) : Rat)

/-- Nearest integer, ties to even. -/
def nearest (q : Rat) : Int :=
  let f := q.floor
  if q - f < 1/2 then f else if 1/2 < q - f then f + 1 else if f % 2 = 0 then f else f + 1

/-- The `e` with `2 ^ e ≤ |q| < 2 ^ (e + 1)`, for `q ≠ 0`. -/
def exponent (q : Rat) : Int :=
  let e := (Nat.log2 q.num.natAbs : Int) - (Nat.log2 q.den : Int)
  if pow2 e ≤ (if q < 0 then -q else q) then e else e - 1

def round32 (q : Rat) : Rat :=
  if q = 0 then 0 else
  let u := pow2 (exponent q - 23)
  (nearest (q / u) : Rat) * u

end Verif.Optim.Float
