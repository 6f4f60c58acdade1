/-!
# Model of the start/receive protocol of local environments

Models `tensorforce/environments/environment.py`, `Environment.start_reset` (lines 367-372), `start_execute` (374-379) and
`receive_execute` (381-443) for non-vectorized execution.

Simplifications: `reset` and `execute` are arbitrary functions that may fail; the first-output checks are part of them.
-/

namespace Verif.Env.Local

/-- The environment's own functions (e.g. those of `Verif.Env.Wrapper`); `none` is an exception. -/
structure Funs (σ S A O : Type) where
  reset : σ → σ × Option S
  execute : σ → A → σ × Option O

inductive Expect where
  | reset
  | execute
  deriving DecidableEq, Repr

/-- `_expect_receive`, `_actions`, `Environment.__init__`. -/
structure State (σ A : Type) where
  env : σ
  expect : Option Expect
  actions : Option A

def State.init {σ A : Type} (env : σ) : State σ A := { env := env, expect := none, actions := none }

inductive Op (A : Type) where
  | startReset
  | startExecute (a : A)
  | receive
  deriving DecidableEq, Repr

inductive Out (S O : Type) where
  | started
  | states (s : S)          -- states, -1, None
  | outcome (o : O)         -- states, terminal, reward
  | raised
  deriving DecidableEq, Repr

def State.step {σ S A O : Type} (f : Funs σ S A O) (st : State σ A) : Op A → State σ A × Out S O
  | .startReset =>
    if st.expect.isSome then (st, .raised) else ({ st with expect := some .reset }, .started)
  | .startExecute a =>
    if st.expect.isSome then (st, .raised)
    else
      let st := { st with expect := some .execute }                  -- line 377, before the assertion
      if st.actions.isSome then (st, .raised) else ({ st with actions := some a }, .started)
  | .receive =>
    match st.expect with
    | none => (st, .raised)
    | some .reset =>
      let st := { st with expect := none }
      match f.reset st.env with
      | (env, some s) => ({ st with env := env }, .states s)
      | (env, none) => ({ st with env := env }, .raised)
    | some .execute =>
      let st := { st with expect := none }
      match st.actions with
      | none => (st, .raised)
      | some a =>
        match f.execute st.env a with
        | (env, some o) => ({ st with env := env, actions := none }, .outcome o)
        | (env, none) => ({ st with env := env }, .raised)

def State.run {σ S A O : Type} (f : Funs σ S A O) (st : State σ A) : List (Op A) → List (Out S O)
  | [] => []
  | p :: ps => (st.step f p).2 :: State.run f (st.step f p).1 ps

end Verif.Env.Local
