import Verif.Agent.Model

/-!
# Specification of the act-observe interface: what the caller did, per interaction
-/

namespace Verif.Agent

/-- A completed timestep: state, action, terminal code, reward. -/
structure Step (X A R : Type) where
  state : X
  action : A
  terminal : Nat
  reward : R
  deriving DecidableEq, Repr

/-- `pend p`: interaction `p` has been acted on and not yet observed. `cur p`: the timesteps of its running episode.
`done`: the finished episodes, in the order in which they finished. `acts`: actions given so far. -/
structure Spec (X A R : Type) where
  pend : Nat → Option (X × A)
  cur : Nat → List (Step X A R)
  done : List (List (Step X A R))
  acts : Nat

def Spec.init {X A R : Type} : Spec X A R := { pend := fun _ => none, cur := fun _ => [], done := [], acts := 0 }

def Spec.actLoop {X A R : Type} (s : Spec X A R) : List (Nat × X × A) → Spec X A R
  | [] => s
  | (p, x, a) :: l => Spec.actLoop { s with pend := upd s.pend p (some (x, a)), acts := s.acts + 1 } l

/-- Interaction `p` observes. -/
def Spec.observeOne {X A R : Type} (s : Spec X A R) (p t : Nat) (r : R) : Spec X A R :=
  match s.pend p with
  | none => s
  | some (x, a) =>
    let ep := s.cur p ++ [⟨x, a, t, r⟩]
    if t = 0 then { s with pend := upd s.pend p none, cur := upd s.cur p ep }
    else { s with pend := upd s.pend p none, cur := upd s.cur p [], done := s.done ++ [ep] }

def Spec.observeLoop {X A R : Type} (s : Spec X A R) : List (Nat × Nat × R) → Spec X A R
  | [] => s
  | (p, t, r) :: l => Spec.observeLoop (s.observeOne p t r) l

/-- When a call is in order: existing interactions, as many values, `act` where nothing is pending, `observe` where
something is. -/
def Spec.accepts {X A R : Type} (cfg : Config) (s : Spec X A R) : Op X A R → Prop
  | .act ps xs _ => xs.length = ps.length ∧ (∀ p ∈ ps, p < cfg.parallel) ∧ ∀ p ∈ ps, s.pend p = none
  | .observe ps ts rs => ps ≠ [] ∧ ts.length = ps.length ∧ rs.length = ps.length ∧ (∀ p ∈ ps, p < cfg.parallel) ∧
      ∀ p ∈ ps, s.pend p ≠ none
  | .reset => True

instance {X A R : Type} (cfg : Config) (s : Spec X A R) : DecidablePred (s.accepts cfg)
  | .act ps xs _ => inferInstanceAs (Decidable (xs.length = ps.length ∧ (∀ p ∈ ps, p < cfg.parallel) ∧
      ∀ p ∈ ps, s.pend p = none))
  | .observe ps ts rs =>
    have : ∀ p, Decidable (s.pend p ≠ none) := fun p => decidable_of_iff ((s.pend p).isSome = true) (by
      cases s.pend p <;> simp)
    inferInstanceAs (Decidable (ps ≠ [] ∧ ts.length = ps.length ∧ rs.length = ps.length ∧ (∀ p ∈ ps, p < cfg.parallel) ∧
      ∀ p ∈ ps, s.pend p ≠ none))
  | .reset => inferInstanceAs (Decidable True)

/-- Effect of an accepted call; `reset` drops unfinished episodes. -/
def Spec.effect {X A R : Type} (s : Spec X A R) : Op X A R → Spec X A R
  | .act ps xs (some as) => s.actLoop (ps.zip (xs.zip as))
  | .act _ _ none => s
  | .observe ps ts rs => s.observeLoop (ps.zip (ts.zip rs))
  | .reset => { s with pend := fun _ => none, cur := fun _ => [] }

def Spec.step {X A R : Type} (cfg : Config) (s : Spec X A R) (o : Op X A R) : Spec X A R × Bool :=
  if s.accepts cfg o then (s.effect o, true) else (s, false)

def Spec.run {X A R : Type} (cfg : Config) (s : Spec X A R) : List (Op X A R) → Spec X A R × List Bool
  | [] => (s, [])
  | o :: ops =>
    let r := s.step cfg o
    let q := Spec.run cfg r.1 ops
    (q.1, r.2 :: q.2)

/-- Recording starts between episodes: the observation that reaches `start` reaches it exactly and leaves no interaction in
the middle of an episode. (Always so for `start = 0` or a single interaction.) -/
def CleanStart {X A R : Type} (cfg : Config) (s s' : Spec X A R) : Prop :=
  ∀ rc, cfg.recorder = some rc → s.done.length < rc.start → rc.start ≤ s'.done.length →
    s'.done.length = rc.start ∧ ∀ p, s'.pend p = none ∧ s'.cur p = []

/-- Nothing goes wrong after a call has been found in order: no interaction is named twice, the policy answers, the episode
does not get longer than the limit, and recording starts between episodes. -/
def Smooth {X A R : Type} (cfg : Config) (s : Spec X A R) : Op X A R → Prop
  | .act ps _ res => ps.Nodup ∧ ∃ as, res = some as ∧ as.length = ps.length
  | .observe ps ts rs => ps.Nodup ∧
      (∀ m, cfg.limit = some m → ∀ x ∈ ps.zip ts, x.2 = 0 → (s.cur x.1).length < m) ∧
      CleanStart cfg s (s.effect (.observe ps ts rs))
  | .reset => True

/-- Every call that is in order is smooth. -/
def SmoothRun {X A R : Type} (cfg : Config) (s : Spec X A R) : List (Op X A R) → Prop
  | [] => True
  | o :: ops => (s.accepts cfg o → Smooth cfg s o) ∧ SmoothRun cfg (s.step cfg o).1 ops

/-! ## Traces -/

/-- The trace file with the given episodes. -/
def traceOf {X A R : Type} (name : Nat) (eps : List (List (Step X A R))) : Trace X A R :=
  { name := name, states := eps.flatten.map (·.state), actions := eps.flatten.map (·.action),
    terminal := eps.flatten.map (·.terminal), reward := eps.flatten.map (·.reward) }

/-- The files for the episodes `eps`, recorded from episode number `start` on: file `k` holds the `k`-th group of `f`
episodes and is named after the last of them. -/
def tracesOf {X A R : Type} (start f : Nat) (eps : List (List (Step X A R))) : List (Trace X A R) :=
  (List.range (eps.length / f)).map fun k => traceOf (start + (k + 1) * f - 1) ((eps.drop (k * f)).take f)

end Verif.Agent
