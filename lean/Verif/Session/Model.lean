/-!
# Model of the session state of an agent

Models `tensorforce/core/models/model.py`: the counters, the statistics of the running episodes and the internal states which
`act` (570-646), `independent_act` (514-568), `observe` (648-776) and `reset` (507-512) read and write.

Simplifications:
* The networks of policy and baseline are one function `Net.step` of the variables, a state and an internal state; the rows of a
  batch do not influence each other. Sampling, exploration and preprocessing are left out.
* What `core_observe` does to the variables is part of the call: `some v` is an update with the new variables `v`, `none` no update.
* Assertions are active (`create_tf_assertions`, the default), and auxiliary inputs are valid. The assertion of `core_observe`
  about the number of buffered timesteps is not modelled here (`Verif.Returns.Model`).
* `tf.tensor_scatter_nd_update` writes the rows one after the other; TensorFlow leaves the order open if an index occurs twice.
-/

namespace Verif.Session

/-- Policy and baseline as far as they have internal states: `step` gives the action and the next internal state. -/
structure Net (V S I A : Type) where
  step : V → S → I → A × I
  initial : I

/-- Variables of the model: counters (338-354), statistics of the running episode of each parallel interaction (356-365),
`previous_internals` (367-379, the internal state of each parallel interaction), and the variables of the networks. -/
structure State (V I : Type) where
  timesteps : Nat
  episodes : Nat
  updates : Nat
  length : List Nat
  ret : List Rat
  internals : List I
  vars : V
  deriving DecidableEq, Repr

/-- Calls of the model. -/
inductive Call (V S I : Type) where
  /-- States together with the numbers of their parallel interactions. -/
  | act (batch : List (Nat × S))
  | independent (batch : List (S × I))
  | observe (parallel : Nat) (terminal : List Nat) (reward : List Rat) (update : Option V)
  | reset

/-- What a call returns. -/
inductive Result (I A : Type) where
  | acted (actions : List A) (timesteps : Nat)
  | independent (rows : List (A × I))
  | observed (updated : Bool) (episodes updates : Nat)
  | counters (timesteps episodes updates : Nat)
  deriving DecidableEq, Repr

/-- `tf.tensor_scatter_nd_update`. -/
def scatter {α : Type} (xs : List α) : List (Nat × α) → List α
  | [] => xs
  | (p, x) :: rest => scatter (xs.set p x) rest

/-- `tf.tensor_scatter_nd_add` of one entry. -/
def scatterAdd {α : Type} [Add α] (xs : List α) (p : Nat) (d : α) : List α :=
  match xs[p]? with
  | none => xs
  | some x => xs.set p (x + d)

/-- State after `core_initialize`, 337-379, with `parallel_interactions = n`. -/
def initState {V S I A : Type} (net : Net V S I A) (n : Nat) (vars : V) : State V I where
  timesteps := 0
  episodes := 0
  updates := 0
  length := List.replicate n 0
  ret := List.replicate n 0
  internals := List.replicate n net.initial
  vars := vars

/-- Rows of an `act` call, 602-612: the internal state is gathered for each row, then the policy is called. -/
def rows {V S I A : Type} (net : Net V S I A) (vars : V) (internals : List I) : List (Nat × S) → Option (List (Nat × A × I))
  | [] => some []
  | (p, s) :: rest =>
    match internals[p]?, rows net vars internals rest with
    | some i, some r => some ((p, net.step vars s i) :: r)
    | _, _ => none

/-- `Model.act`, 570-646; `none` is an exception. -/
def act {V S I A : Type} (net : Net V S I A) (st : State V I) (batch : List (Nat × S)) : Option (Result I A × State V I) :=
  match rows net st.vars st.internals batch with
  | none => none
  | some r =>
    let internals := scatter st.internals (r.map fun x => (x.1, x.2.2))
    let timesteps := st.timesteps + batch.length
    some (.acted (r.map fun x => x.2.1) timesteps, { st with internals := internals, timesteps := timesteps })

/-- `Model.independent_act`, 514-568. -/
def independentAct {V S I A : Type} (net : Net V S I A) (st : State V I) (batch : List (S × I)) : Result I A :=
  .independent (batch.map fun x => net.step st.vars x.1 x.2)

/-- Assertions of `observe`, 656-679: codes below 3, one reward per terminal, a known interaction, and a terminal only at the
end. An empty batch has no last terminal. -/
def observeValid (n p : Nat) (terminal : List Nat) (reward : List Rat) : Bool :=
  terminal.all (· < 3) && (reward.length == terminal.length) && decide (p < n) && !terminal.isEmpty &&
    decide (terminal.countP (0 < ·) ≤ 1) && (decide (0 < terminal.countP (0 < ·)) == decide (0 < terminal.getLast?.getD 0))

/-- `Model.observe`, 648-776; `none` is an exception. -/
def observe {V S I A : Type} (net : Net V S I A) (st : State V I) (p : Nat) (terminal : List Nat) (reward : List Rat)
    (update : Option V) : Option (Result I A × State V I) :=
  if observeValid st.length.length p terminal reward then
    -- 692-707
    let length := scatterAdd st.length p terminal.length
    let ret := scatterAdd st.ret p (reward.foldl (· + ·) 0)
    -- core_observe, 709-711
    let updates := if update.isSome then st.updates + 1 else st.updates
    let vars := update.getD st.vars
    -- 713-771
    let st := if 0 < terminal.getLast?.getD 0 then
        { st with updates := updates, vars := vars, episodes := st.episodes + 1, length := scatter length [(p, 0)],
                  ret := scatter ret [(p, 0)], internals := scatter st.internals [(p, net.initial)] }
      else { st with updates := updates, vars := vars, length := length, ret := ret }
    some (.observed update.isSome st.episodes st.updates, st)
  else none

/-- A call. `reset` returns the counters (507-512); what `TensorforceModel.reset` (tensorforce.py 930-941) resets in addition,
buffer positions and memory, is not part of this state. -/
def exec {V S I A : Type} (net : Net V S I A) (st : State V I) : Call V S I → Option (Result I A × State V I)
  | .act batch => act net st batch
  | .independent batch => some (independentAct net st batch, st)
  | .observe p terminal reward update => observe net st p terminal reward update
  | .reset => some (.counters st.timesteps st.episodes st.updates, st)

/-- Successive calls; the first exception ends the session. -/
def run {V S I A : Type} (net : Net V S I A) (st : State V I) : List (Call V S I) → Option (List (Result I A) × State V I)
  | [] => some ([], st)
  | c :: cs =>
    match exec net st c with
    | none => none
    | some (r, st) =>
      match run net st cs with
      | none => none
      | some (rs, st) => some (r :: rs, st)

end Verif.Session
