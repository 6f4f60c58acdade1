import Verif.Optim.Model

/-!
# Model of the synchronization optimizer

Models `tensorforce/core/optimizers/synchronization.py` 53-114. All variables together are one vector; arithmetic is exact (rounding:
`Verif.Optim.Float`). The hyperparameters are given as functions of the number of earlier updates, together with whether they are
constant.
-/

namespace Verif.Optim.Sync

open Vec

variable {n : Nat}

/-- A hyperparameter: a constant or a schedule over updates. -/
inductive Hyper (α : Type) where
  | const (a : α)
  | sched (f : Nat → α)

def Hyper.value {α : Type} : Hyper α → Nat → α
  | .const a, _ => a
  | .sched f, t => f t

/-- `is_constant(value=...)`. -/
def Hyper.isConst {α : Type} [DecidableEq α] : Hyper α → α → Bool
  | .const a, b => a = b
  | .sched _, _ => false

structure State (n : Nat) where
  next : Int          -- `next_sync`, initially zero (57-60); unused if the frequency is constant 1
  target : Vec n

structure Config where
  weight : Hyper Rat
  frequency : Hyper Int

/-- `next_sync` after a synchronization, 75-79. -/
def reload (c : Config) (t : Nat) (next : Int) : Int := if c.frequency.isConst 1 then next else c.frequency.value t

/-- `apply_sync`, 74-97: new state and returned deltas. -/
def applySync (c : Config) (t : Nat) (source : Vec n) (s : State n) : State n × Vec n :=
  if c.weight.isConst 1 then (⟨reload c t s.next, source⟩, sub source s.target)
  else
    let delta := scale (c.weight.value t) (sub source s.target)
    (⟨reload c t s.next, add s.target delta⟩, delta)

/-- `no_sync`, 99-107. -/
def noSync (s : State n) : State n × Vec n := (⟨s.next - 1, s.target⟩, Vec.zero)

/-- `step`, 109-114. -/
def step (c : Config) (t : Nat) (source : Vec n) (s : State n) : State n × Vec n :=
  if c.frequency.isConst 1 then applySync c t source s
  else if s.next > 1 then noSync s else applySync c t source s

/-- State before update number `t` (from zero), for the sources at each update. -/
def before (c : Config) (sources : Nat → Vec n) (target : Vec n) : Nat → State n
  | 0 => ⟨0, target⟩
  | t + 1 => (step c t (sources t) (before c sources target t)).1

/-- What synchronization at update `t` should do. -/
def moved (c : Config) (t : Nat) (source target : Vec n) : Vec n :=
  fun i => target i + c.weight.value t * (source i - target i)

end Verif.Optim.Sync
