/-!
# Model of `EnvironmentWrapper`

Models `tensorforce/environments/environment.py`, `EnvironmentWrapper.__init__` (lines 474-495), `reset` (518-547) and
`execute` (549-630) for non-vectorized execution, and the vectorized end of `execute` (619-630) in `finishVec`.

Simplifications: states, actions and rewards are abstract values; the inner environment and the reward-shaping function
are arbitrary (they may fail, and change the state `σ`); the type checks of the first outputs are reduced to the
range check of `terminal` (lines 564-569) and an abstract predicate on states; the reward type check is left out.
-/

namespace Verif.Env

/-- Errors: `raised` stands for an exception of the environment or of the shaping function. -/
inductive Err where
  | notReset        -- line 551
  | assertion       -- line 554
  | badOutput       -- lines 532, 560-569
  | raised
  | unexpected
  deriving DecidableEq, Repr

/-- Inner environment together with the reward shaping function (`reward_shaping`, lines 595-611): the latter receives
previous states, action, terminal, reward and next states; its result is a reward and possibly a terminal. -/
structure Inner (σ S A R : Type) where
  reset : σ → σ × Option S
  execute : σ → A → σ × Option (S × Int × R)
  shape : Option (σ → S → A → Int → R → S → σ × Option (R × Option Int))
  statesOk : S → Bool

/-- `EnvironmentWrapper.__init__`, lines 479-492: the limit in force. -/
def wrapLimit (envMax given : Option Nat) : Except Err (Option Nat) :=
  match envMax, given with
  | some e, some m => if e < m then .error .unexpected else .ok (some m)
  | none, some m => .ok (some m)
  | e, none => .ok e

/-- State of the wrapper. -/
structure Wrapper (σ S : Type) where
  env : σ
  limit : Option Nat
  timestep : Option Nat
  prev : Option S
  resetCheck : Bool
  executeCheck : Bool

/-- Lines 493-494 (and the output checks of `Environment.__init__`). -/
def Wrapper.init {σ S : Type} (env : σ) (limit : Option Nat) : Wrapper σ S :=
  { env := env, limit := limit, timestep := none, prev := none, resetCheck := true, executeCheck := true }

/-- `EnvironmentWrapper.reset`, lines 518-547; the timestep is set before the inner environment is called. -/
def Wrapper.reset {σ S A R : Type} (e : Inner σ S A R) (w : Wrapper σ S) : Wrapper σ S × Except Err S :=
  let w := { w with timestep := some 0 }
  match e.reset w.env with
  | (env, none) => ({ w with env := env }, .error .raised)
  | (env, some s) =>
    let w := { w with env := env }
    if w.resetCheck && !e.statesOk s then (w, .error .badOutput)
    else ({ w with resetCheck := false, prev := if e.shape.isSome then some s else w.prev }, .ok s)

/-- `at the limit`, lines 615-616. -/
def atLimit (limit : Option Nat) (t : Nat) : Bool :=
  match limit with
  | none => false
  | some m => decide (t ≥ m)

/-- Lines 612-618: count the timestep, abort at the limit, remember the end of the episode. -/
def Wrapper.finish {σ S : Type} (w : Wrapper σ S) (t : Nat) (terminal : Int) : Wrapper σ S × Int :=
  let terminal := if terminal = 0 ∧ atLimit w.limit (t + 1) then 2 else terminal
  ({ w with timestep := if terminal > 0 then none else some (t + 1) }, terminal)

/-- The environment call, output check and reward shaping of `execute`, lines 555-611: the result is the state, the
terminal code before the limit is applied, and the reward. -/
def Wrapper.inner {σ S A R : Type} (e : Inner σ S A R) (w : Wrapper σ S) (a : A) :
    Wrapper σ S × Except Err (S × Int × R) :=
  match e.execute w.env a with
  | (env, none) => ({ w with env := env }, .error .raised)
  | (env, some (s, terminal, r)) =>
    let w := { w with env := env }
    if w.executeCheck && !(e.statesOk s && decide (0 ≤ terminal ∧ terminal ≤ 2)) then (w, .error .badOutput)
    else
      let w := { w with executeCheck := false }
      match e.shape with
      | none => (w, .ok (s, terminal, r))
      | some f =>
        match f w.env (w.prev.getD s) a terminal r s with
        | (env, none) => ({ w with env := env }, .error .raised)
        | (env, some (r', t')) => ({ w with env := env, prev := some s }, .ok (s, t'.getD terminal, r'))

/-- `EnvironmentWrapper.execute`, lines 549-618. The second component is the terminal code before the limit is applied
(kept for the statements), the third the result. -/
def Wrapper.execute {σ S A R : Type} (e : Inner σ S A R) (w : Wrapper σ S) (a : A) :
    Wrapper σ S × Option Int × Except Err (S × Int × R) :=
  match w.timestep with
  | none => (w, none, .error .notReset)
  | some t =>
    if atLimit w.limit t then (w, none, .error .assertion)
    else
      match w.inner e a with
      | (w', .error err) => (w', none, .error err)
      | (w', .ok (s, terminal, r)) =>
        let (w'', terminal') := w'.finish t terminal
        (w'', some terminal, .ok (s, terminal', r))

/-- Vectorized end of `execute`, lines 612, 619-630: new timestep, terminals, and whether `parallel` and `states` are
emptied. -/
def finishVec (limit : Option Nat) (t : Nat) (terminals : List Int) : Option Nat × List Int × Bool :=
  let abort := terminals.any (· == 0) && atLimit limit (t + 1)
  let terminals := if abort then terminals.map (fun x => if x = 0 then 2 else x) else terminals
  (if terminals.all (· > 0) then none else some (t + 1), terminals, abort)

/-- Calls and what happened. -/
inductive Op (A : Type) where
  | reset
  | execute (a : A)

inductive Event (S A R : Type) where
  | reset (result : Except Err S)
  | execute (a : A) (raw : Option Int) (result : Except Err (S × Int × R))

def Wrapper.step {σ S A R : Type} (e : Inner σ S A R) (w : Wrapper σ S) : Op A → Wrapper σ S × Event S A R
  | .reset => let r := w.reset e; (r.1, .reset r.2)
  | .execute a => let r := w.execute e a; (r.1, .execute a r.2.1 r.2.2)

/-- A history of calls: final state and events. -/
def Wrapper.run {σ S A R : Type} (e : Inner σ S A R) (w : Wrapper σ S) : List (Op A) → Wrapper σ S × List (Event S A R)
  | [] => (w, [])
  | o :: os =>
    let r := w.step e o
    let r' := Wrapper.run e r.1 os
    (r'.1, r.2 :: r'.2)

end Verif.Env
