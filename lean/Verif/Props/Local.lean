import Verif.Env.Local

/-!
# Property C46: the start/receive protocol of local environments
-/

namespace Verif.Props.Local

open Verif.Env.Local

variable {σ S A O : Type}

/-- Direct calls. -/
inductive Call (A : Type) where
  | reset
  | execute (a : A)

def direct (f : Funs σ S A O) (env : σ) : Call A → σ × Out S O
  | .reset => match f.reset env with
    | (e, some s) => (e, .states s)
    | (e, none) => (e, .raised)
  | .execute a => match f.execute env a with
    | (e, some o) => (e, .outcome o)
    | (e, none) => (e, .raised)

def directRun (f : Funs σ S A O) (env : σ) : List (Call A) → List (Out S O)
  | [] => []
  | c :: cs => (direct f env c).2 :: directRun f (direct f env c).1 cs

/-- The same calls through the protocol. -/
def protocol : Call A → List (Op A)
  | .reset => [.startReset, .receive]
  | .execute a => [.startExecute a, .receive]

/-- The outcome of each pair. -/
def pairs : List (Out S O) → List (Out S O)
  | _ :: y :: L => y :: pairs L
  | _ => []

/-- No `execute` call raises (resets may). -/
def NoFailure (f : Funs σ S A O) : σ → List (Call A) → Prop
  | _, [] => True
  | env, c :: cs => (∀ a, c = .execute a → (direct f env c).2 ≠ .raised) ∧ NoFailure f (direct f env c).1 cs

/-- The last call may fail. -/
def NoFailureBeforeLast (f : Funs σ S A O) : σ → List (Call A) → Prop
  | env, cs => NoFailure f env cs.dropLast

/-- **C46, partial**: start followed by receive gives exactly what the direct call gives, for every history in which
no `execute` raises except possibly the last one. Missing: what follows an exception, see the violation. -/
theorem start_receive_eq_direct_partial (f : Funs σ S A O) (env : σ) (cs : List (Call A))
    (h : NoFailureBeforeLast f env cs) :
    pairs ((State.init env : State σ A).run f (cs.flatMap protocol)) = directRun f env cs := by
  induction cs generalizing env with
  | nil => rfl
  | cons c cs ih =>
    by_cases hnil : cs = []
    · subst hnil
      cases c with
      | reset =>
        rcases hr : f.reset env with ⟨e, _ | s⟩ <;>
          simp [protocol, State.run, State.step, State.init, hr, pairs, directRun, direct]
      | execute a =>
        rcases hr : f.execute env a with ⟨e, _ | s⟩ <;>
          simp [protocol, State.run, State.step, State.init, hr, pairs, directRun, direct]
    · obtain ⟨d, ds, rfl⟩ := List.exists_cons_of_ne_nil hnil
      obtain ⟨h1, h2⟩ := h
      rw [List.flatMap_cons]
      have ih' := ih _ h2
      simp only [State.init] at ih'
      generalize (d :: ds).flatMap protocol = P at ih' ⊢
      generalize d :: ds = D at ih' ⊢
      cases c with
      | reset =>
        rcases hr : f.reset env with ⟨e, _ | s⟩ <;>
          simp only [direct, hr] at ih' <;>
          simp [protocol, State.run, State.step, State.init, hr, pairs, direct, ← ih', directRun]
      | execute a =>
        rcases hr : f.execute env a with ⟨e, _ | s⟩
        · exact absurd (by simp [direct, hr]) (h1 a rfl)
        · simp only [direct, hr] at ih'
          simp [protocol, State.run, State.step, State.init, hr, pairs, direct, ← ih', directRun]

/-- **C46**: receiving without start, and starting twice, raise and leave the environment alone. -/
theorem out_of_order_raises (f : Funs σ S A O) (st : State σ A) :
    (st.expect = none → st.step f .receive = (st, .raised)) ∧
      (st.expect ≠ none → st.step f .startReset = (st, .raised)) ∧
      (st.expect ≠ none → ∀ a, st.step f (.startExecute a) = (st, .raised)) := by
  cases h : st.expect <;> simp [State.step, h]

/-- Counts; action 0 raises. -/
def exFuns : Funs Nat Nat Nat Nat :=
  { reset := fun _ => (0, some 0), execute := fun s a => if a = 0 then (s, none) else (s + 1, some (10 * a + s)) }

/-- **C46 fails after an exception**: once an `execute` has raised, a reset succeeds but the next `start_execute`
raises, and the receive after it executes the *old* action. -/
theorem after_failure_violation :
    (State.init 0 : State Nat Nat).run { exFuns with execute := fun s a => if s = 0 ∧ a = 7 then (1, none) else (s + 1, some (10 * a + s)) }
      [.startReset, .receive, .startExecute 7, .receive, .startExecute 2, .receive] =
    [.started, .states 0, .started, .raised, .raised, .outcome 71] ∧
    (State.init 0 : State Nat Nat).run exFuns
      [.startExecute 0, .receive, .startReset, .receive, .startExecute 2] =
    [.started, .raised, .started, .states 0, .raised] := by decide

-- non-vacuity
example : pairs ((State.init 0 : State Nat Nat).run exFuns
    ([Call.reset, .execute 2, .execute 3, .execute 0].flatMap protocol)) =
    [.states 0, .outcome 20, .outcome 31, .raised] := by decide

end Verif.Props.Local
