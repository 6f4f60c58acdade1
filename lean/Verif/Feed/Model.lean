/-!
# Feeding experience: forms of states, `Agent.experience`, `Agent.pretrain`

Source: `tensorforce/agents/recorder.py` (lines 253-258, 491-575), `tensorforce/agents/tensorforce.py` (lines 460-659, 675-738),
`core/models/tensorforce.py` (lines 943-1033), `core/utils/tensors_spec.py` (lines 30-49), `core/utils/nested_dict.py` (lines 70-150, 255-300, 343-382).

Simplifications.
* Arrays have finite numbers as values and are given by their shape and their values in row-major order.
* Nested dictionaries are lists of full names and arrays; the single unnamed value has the name `none`.
* A condition on values in a specification (`num_values`, bounds) is a predicate on numbers; conversion of numeric types is left out (C110).
* The order in which `random.shuffle` puts the traces is an argument of `pretrain`.
* A list of actions consists of dictionaries only or of no dictionary; rows of a single state given as a list are the rows of an array.
* `Model.experience` is reduced to the counters and the received batch; what the memory does with it is C01, its assertions on masks are left out.
-/

namespace Verif.Feed

inductive Err where
  /-- "Calling agent.experience is not possible mid-episode." -/
  | mid
  /-- `TensorforceError.type` or `TypeError` -/
  | type
  /-- `TensorforceError.value` or `ValueError` -/
  | value
  /-- `IndexError` -/
  | index
  /-- `KeyError` -/
  | key
  /-- `AssertionError` -/
  | assertion
  /-- "Agent.experience() requires full episodes as input." -/
  | full
  /-- names of values differ from the names of the specification -/
  | keys
  /-- shape differs from the specification -/
  | shape
  /-- value excluded by the specification -/
  | range
  /-- `AttributeError` -/
  | attribute
  /-- `TensorforceError.invalid` -/
  | invalid
  /-- `TensorforceError.required` -/
  | required
  /-- "Calling agent.act must be preceded by agent.observe for training, ..." -/
  | order
  deriving Repr, DecidableEq

/-- A numpy array: shape and values in row-major order. -/
structure Nd where
  shape : List Nat
  data : List Rat
  deriving Repr, DecidableEq

/-- Number of values of an array of a shape. -/
def size : List Nat → Nat
  | [] => 1
  | n :: r => n * size r

/-- The name of a value, `none` for the single unnamed value. -/
abbrev Key := Option String

/-- A dictionary as passed by the user. -/
abbrev Dict := List (String × Nd)

/-- An `ArrayDict`. -/
abbrev Flat := List (Key × Nd)

/-- Value of a name. -/
def lookup {κ α : Type} [DecidableEq κ] (k : κ) : List (κ × α) → Option α
  | [] => none
  | (k', x) :: r => if k' = k then some x else lookup k r

/-- The value found, or an error. -/
def found {α : Type} (e : Err) : Option α → Except Err α
  | none => .error e
  | some x => .ok x

/-- Dictionary without a name. -/
def erase {κ α : Type} [DecidableEq κ] (k : κ) (d : List (κ × α)) : List (κ × α) :=
  d.filter (fun e => e.1 ≠ k)

/-- `ArrayDict(d)` -/
def keyed (d : Dict) : Flat := d.map (fun e => (some e.1, e.2))

/-- `np.expand_dims(x, axis=0)` -/
def expand (x : Nd) : Nd := ⟨1 :: x.shape, x.data⟩

/-- `np.stack(xs, axis=0)` -/
def stack : List Nd → Except Err Nd
  | [] => .error .value
  | x :: xs =>
    if xs.all (fun y => y.shape = x.shape) then .ok ⟨(xs.length + 1) :: x.shape, x.data ++ xs.flatMap Nd.data⟩
    else .error .value

/-- `np.concatenate([x, y], axis=0)` -/
def concatenate (x y : Nd) : Except Err Nd :=
  match x.shape, y.shape with
  | n :: s, m :: s' => if s = s' then .ok ⟨(n + m) :: s, x.data ++ y.data⟩ else .error .value
  | _, _ => .error .value

/-- `np.repeat(np.expand_dims(x, axis=0), repeats=n, axis=0)` -/
def repeatRows (n : Nat) (x : Nd) : Nd := ⟨n :: x.shape, (List.replicate n x.data).flatten⟩

/-- Blocks of `w` values, each repeated `n` times. -/
def repeatBlocks (n w : Nat) : Nat → List Rat → List Rat
  | 0, _ => []
  | m + 1, l => (List.replicate n (l.take w)).flatten ++ repeatBlocks n w m (l.drop w)

/-- `np.tile(np.expand_dims(x, axis=0), reps=(n,))`: the last dimension is repeated. -/
def tile (n : Nat) (x : Nd) : Nd :=
  let shape := 1 :: x.shape
  let w := shape.getLastD 1
  ⟨shape.dropLast ++ [w * n], repeatBlocks n w (size shape.dropLast) x.data⟩

/-- `x[a:b]` for `a ≤ b ≤ x.shape[0]`. -/
def slice (a b : Nat) (x : Nd) : Nd :=
  ⟨(b - a) :: x.shape.tail, (x.data.drop (a * size x.shape.tail)).take ((b - a) * size x.shape.tail)⟩

/-- `np.ones(shape)` -/
def ones (shape : List Nat) : Nd := ⟨shape, List.replicate (size shape) 1⟩

/-- Turns a list of dictionaries into a dictionary of arrays: `fmap(np.stack, zip_values=...)`, by the names of the first one. -/
def stackDicts (first : Dict) (rest : List Dict) : Except Err Flat :=
  first.mapM (fun e => do
    let ys ← rest.mapM (fun d => found .key (lookup e.1 d))
    let x ← stack (e.2 :: ys)
    pure (some e.1, x))

/-- Specification of a state or action: shape and admissible values. -/
structure Ent where
  shape : List Nat
  valid : Rat → Bool

/-- Specification of an action: number of choices if masked. -/
structure ActEnt where
  ent : Ent
  mask : Option Nat

/-- Specification of an agent; internal states with their initial values. -/
structure Spec where
  states : List (Key × Ent)
  actions : List (Key × ActEnt)
  internals : List (String × Nd)

/-- Argument `states`. -/
inductive StatesIn where
  /-- an array, a number, or a list whose first element is no dictionary -/
  | array (x : Nd)
  | empty
  /-- a list starting with a dictionary, `none` for an element which is no dictionary -/
  | list (first : Dict) (rest : List (Option Dict))
  | dict (d : Dict)

/-- Result of `_process_states_input`. -/
structure Input where
  states : Flat
  batched : Bool
  num : Nat
  /-- `is_iter_of_dicts` -/
  iter : Option Bool
  deriving Repr, DecidableEq

/-- The check of the number of rows, `recorder.py` lines 568-573. -/
def checkRows (num : Nat) : Flat → Except Err Unit
  | [] => .ok ()
  | (_, x) :: r => match x.shape with
    | [] => .error .index
    | n :: _ => if n = num then checkRows num r else .error .value

/-- The dictionary of each element, or the error on an element which is no dictionary. -/
def allDicts : List (Option Dict) → Except Err (List Dict)
  | [] => .ok []
  | none :: _ => .error .type
  | some d :: r => do
    let ds ← allDicts r
    pure (d :: ds)

/-- A single unnamed state given as an array, lines 495-511. -/
def processArray (e : Ent) (x : Nd) : Except Err Input :=
  if x.shape = e.shape then .ok ⟨[(none, expand x)], false, 1, none⟩
  else if x.shape.tail = e.shape then
    match x.shape with
    | [] => .error .index
    | n :: _ => .ok ⟨[(none, x)], true, n, some true⟩
  else .error .assertion

/-- A list of dictionaries, lines 513-534. -/
def processList (first : Dict) (rest : List (Option Dict)) : Except Err Input := do
  let ds ← allDicts rest
  let st ← stackDicts first ds
  pure ⟨st, true, ds.length + 1, some true⟩

/-- A dictionary, lines 536-560. -/
def processDict (name : String) (e : Ent) (d : Dict) : Except Err Input :=
  match lookup name d with
  | none => .error .key
  | some x =>
    if x.shape = e.shape then .ok ⟨keyed (d.map (fun p => (p.1, expand p.2))), false, 1, none⟩
    else if x.shape.tail = e.shape then
      match x.shape with
      | [] => .error .index
      | n :: _ => if n = 0 then .error .value else .ok ⟨keyed d, true, n, some false⟩
    else .error .assertion

/-- The branches on the form of the states, lines 492-566. -/
def processForm (spec : List (Key × Ent)) (s : StatesIn) : Except Err Input :=
  match s with
  | .array x => match spec with
    | [(none, e)] => processArray e x
    | _ => .error .type
  | .empty => match spec with
    | [(none, _)] => .error .index
    | _ => .error .value
  | .list first rest => processList first rest
  | .dict d => match spec with
    | (k, e) :: _ => processDict (k.getD "state") e d
    | [] => .error .index

/-- `_process_states_input`, lines 491-575. -/
def processStates (spec : List (Key × Ent)) (s : StatesIn) : Except Err Input := do
  let inp ← processForm spec s
  checkRows inp.num inp.states
  pure inp

/-- Recording of states in `act`, lines 253-258: by the names of the specification. -/
def recordStates (spec : List (Key × Ent)) (states : Flat) : Except Err Flat :=
  spec.mapM (fun e => do
    let x ← found (if e.1 = none then .assertion else .key) (lookup e.1 states)
    pure (e.1, x))

/-- Argument `internals`. -/
inductive InternalsIn where
  | absent
  | list (ds : List Dict)
  | dict (d : Dict)
  | other

/-- Argument `actions`. -/
inductive ActionsIn where
  /-- numpy array -/
  | array (x : Nd)
  /-- tuple or list without dictionaries -/
  | list (x : Nd)
  | empty
  /-- tuple or list of dictionaries -/
  | dicts (first : Dict) (rest : List Dict)
  | dict (d : Dict)
  | other

/-- Internal states, `tensorforce.py` lines 491-504 and 530-540. -/
def internalsOf (spec : Spec) (iter : Bool) (num : Nat) : InternalsIn → Except Err Flat
  | .absent =>
    if iter then .ok (keyed (spec.internals.map (fun e => (e.1, repeatRows num e.2))))
    else .ok (keyed (spec.internals.map (fun e => (e.1, tile num e.2))))
  | .list ds =>
    if iter then
      match ds with
      | [] => .error .index
      | d :: r => stackDicts d r
    else .error .type
  | .dict d => if iter then .error .type else .ok (keyed d)
  | .other => .error .type

/-- The name of a single action is dropped. -/
def unnamed : Flat → Flat
  | [(some "action", x)] => [(none, x)]
  | f => f

/-- Actions, lines 506-525 and 542-553. -/
def actionsOf (iter : Bool) : ActionsIn → Except Err Flat
  | .array x => .ok [(none, x)]
  | .list x => if iter then .ok [(none, x)] else .error .type
  | .empty => if iter then .error .index else .error .type
  | .dicts first rest =>
    if iter then
      if (first :: rest).all (fun d => d.map Prod.fst = ["action"]) then do
        let f ← stackDicts first rest
        pure (unnamed f)
      else stackDicts first rest
    else .error .type
  | .dict d => if iter then .error .type else .ok (unnamed (keyed d))
  | .other => .error .type

/-- An argument with one number per time step. -/
inductive Scalars (α : Type) where
  | one (a : α)
  | many (l : List α)

/-- `terminal` and `reward` as arrays, lines 559-563. -/
def scalars {α : Type} (batched : Bool) : Scalars α → Except Err (List α)
  | .one a => if batched then .error .index else .ok [a]
  | .many l => if batched then .ok l else .error .value

/-- Expansion of a single time step, lines 556-558. -/
def expandUnless (batched : Bool) (f : Flat) : Flat :=
  if batched then f else f.map (fun e => (e.1, expand e.2))

/-- Name under which the mask of an action is passed. -/
def maskName (k : Key) : String := k.getD "action" ++ "_mask"

/-- Masks: taken out of the states, or all true, lines 589-601.  Masks and remaining states. -/
def popMasks (num : Nat) : List (Key × ActEnt) → Flat → Flat × Flat
  | [], st => ([], st)
  | (k, e) :: r, st =>
    match e.mask with
    | none => popMasks num r st
    | some n =>
      let x := (lookup (some (maskName k)) st).getD (ones (num :: (e.ent.shape ++ [n])))
      let rest := popMasks num r (erase (some (maskName k)) st)
      ((k, x) :: rest.1, rest.2)

/-- Whether the specification is a single unnamed value. -/
def single {α : Type} : List (Key × α) → Bool
  | [(none, _)] => true
  | _ => false

/-- The name of a single state is dropped, lines 602-603. -/
def dropName (spec : List (Key × Ent)) (st : Flat) : Except Err Flat :=
  if single spec && !single st then
    match lookup (some "state") st with
    | none => .error .type
    | some x => if (erase (some "state") st).isEmpty then .ok [(none, x)] else .error .assertion
  else .ok st

/-- Arguments of `experience`. -/
structure Args where
  states : StatesIn
  actions : ActionsIn
  terminal : Scalars Nat
  reward : Scalars Rat
  internals : InternalsIn := .absent

/-- Experience as arrays: before the split into episodes, or one episode as given to the model. -/
structure Batch where
  states : Flat
  internals : Flat
  masks : Flat
  actions : Flat
  terminal : List Nat
  reward : List Rat
  deriving Repr, DecidableEq

/-- A condition with an error. -/
def check (c : Bool) (e : Err) : Except Err Unit := if c then .ok () else .error e

/-- Everything before the split into episodes, lines 480-612; `mid` for a buffered time step. -/
def prepare (spec : Spec) (mid : Bool) (a : Args) : Except Err Batch := do
  check (!mid) .mid
  let inp ← processStates spec.states a.states
  let iter := inp.iter == some true
  let internals ← internalsOf spec iter inp.num a.internals
  let actions ← actionsOf iter a.actions
  let internals := expandUnless inp.batched internals
  let actions := expandUnless inp.batched actions
  checkRows inp.num internals
  checkRows inp.num actions
  let terminal ← scalars inp.batched a.terminal
  let reward ← scalars inp.batched a.reward
  check (terminal.length == inp.num) .value
  check (reward.length == inp.num) .value
  let masks := popMasks inp.num spec.actions inp.states
  let states ← dropName spec.states masks.2
  check (!terminal.isEmpty) .index
  check (terminal.getLast? != some 0) .full
  pure ⟨states, internals, masks.1, actions, terminal, reward⟩

/-- Begin and end of each episode, lines 615-618 and 627. -/
def bounds : Nat → Nat → List Nat → List (Nat × Nat)
  | _, _, [] => []
  | index, last, t :: ts =>
    if t = 0 then bounds (index + 1) last ts
    else (last, index + 1) :: bounds (index + 1) (index + 1) ts

/-- `fmap(lambda x: x[a:b])` -/
def sliceAll (a b : Nat) (f : Flat) : Flat := f.map (fun e => (e.1, slice a b e.2))

/-- The time steps from `a` to `b`, lines 620-626. -/
def cut (a b : Nat) (p : Batch) : Batch :=
  ⟨sliceAll a b p.states, sliceAll a b p.internals, sliceAll a b p.masks, sliceAll a b p.actions,
   (p.terminal.drop a).take (b - a), (p.reward.drop a).take (b - a)⟩

/-- `TensorSpec.to_tensor` with `batched=True`. -/
def toTensor (e : Ent) (x : Nd) : Except Err Nd :=
  if x.shape.tail = e.shape then
    if x.data.all e.valid then .ok x else .error .range
  else .error .shape

/-- `TensorsSpec.to_tensor`, `tensors_spec.py` lines 30-49. -/
def toTensors (ents : List (Key × Ent)) (recover : Bool) (f : Flat) : Except Err Flat := do
  check (recover || (f.all (fun e => (ents.map Prod.fst).contains e.1) && ents.all (fun e => (f.map Prod.fst).contains e.1))) .keys
  ents.mapM (fun e => do
    let x ← found .assertion (lookup e.1 f)
    let y ← toTensor e.2 x
    pure (e.1, y))

/-- Specification of the masks. -/
def maskEnts (actions : List (Key × ActEnt)) : List (Key × Ent) :=
  actions.filterMap (fun e => e.2.mask.map (fun n => (e.1, ⟨e.2.ent.shape ++ [n], fun _ => true⟩)))

/-- Specification of the internal states. -/
def internalEnts (internals : List (String × Nd)) : List (Key × Ent) :=
  internals.map (fun e => (some e.1, ⟨e.2.shape, fun _ => true⟩))

/-- Specification of the actions. -/
def actionEnts (actions : List (Key × ActEnt)) : List (Key × Ent) :=
  actions.map (fun e => (e.1, e.2.ent))

/-- Inputs to tensors, lines 629-648. -/
def convert (spec : Spec) (p : Batch) : Except Err Batch := do
  let states ← toTensors spec.states false p.states
  let internals ← toTensors (internalEnts spec.internals) true p.internals
  let masks ← toTensors (maskEnts spec.actions) false p.masks
  let actions ← toTensors (actionEnts spec.actions) false p.actions
  pure ⟨states, internals, masks, actions, p.terminal, p.reward⟩

/-- The loop over the episodes: the batches given to the model, and the error which ends it, lines 614-656. -/
def feed (spec : Spec) (p : Batch) : List (Nat × Nat) → List Batch × Option Err
  | [] => ([], none)
  | (a, b) :: r =>
    match convert spec (cut a b p) with
    | .error e => ([], some e)
    | .ok batch =>
      let rest := feed spec p r
      (batch :: rest.1, rest.2)

/-- `Agent.experience`: the batches given to the model, and the error if one is raised. -/
def experience (spec : Spec) (mid : Bool) (a : Args) : List Batch × Option Err :=
  match prepare spec mid a with
  | .error e => ([], some e)
  | .ok p => feed spec p (bounds 0 0 p.terminal)

/-- Counters of time steps and episodes, `Model.experience`. -/
def counters (timesteps episodes : Nat) : List Batch → Nat × Nat
  | [] => (timesteps, episodes)
  | b :: r => counters (timesteps + b.terminal.length) (episodes + 1) r

/-- A trace file; masks by name of the action. -/
structure Trace where
  states : Flat
  actions : Flat
  terminal : List Nat
  reward : List Rat
  masks : Flat := []
  deriving Repr, DecidableEq

/-- `fmap(np.concatenate, zip_values=(trace,))` -/
def joinFlat (f g : Flat) : Except Err Flat :=
  f.mapM (fun e => do
    let y ← found .key (lookup e.1 g)
    let x ← concatenate e.2 y
    pure (e.1, x))

/-- Two traces as one, lines 726-729. -/
def join (s t : Trace) : Except Err Trace := do
  let states ← joinFlat s.states t.states
  let actions ← joinFlat s.actions t.actions
  let masks ← joinFlat s.masks t.masks
  pure ⟨states, actions, s.terminal ++ t.terminal, s.reward ++ t.reward, masks⟩

/-- The selected traces as one, lines 721-729. -/
def joinAll (files : List Trace) : Option Trace → List Nat → Except Err (Option Trace)
  | batch, [] => .ok batch
  | batch, i :: r =>
    match files[i]? with
    | none => .error .index
    | some t =>
      match batch with
      | none => joinAll files (some t) r
      | some s => do
        let b ← join s t
        joinAll files (some b) r

/-- A value as an element of the arguments: a dictionary unless unnamed. -/
def named : Flat → Dict := List.filterMap (fun e => e.1.map (fun n => (n, e.2)))

/-- The states with the masks added, lines 731-733. -/
def statesArg (t : Trace) : Except Err StatesIn :=
  match t.states with
  | [(none, x)] => if t.masks.isEmpty then .ok (.array x) else .error .type
  | f => .ok (.dict (named f ++ t.masks.map (fun e => (maskName e.1, e.2))))

/-- The actions of a trace. -/
def actionsArg (t : Trace) : ActionsIn :=
  match t.actions with
  | [(none, x)] => .array x
  | f => .dict (named f)

/-- What pretraining does. -/
inductive Event where
  | fed (b : Batch)
  | update
  deriving Repr, DecidableEq

/-- `num_traces` indices, or all, lines 716-719. -/
def select (numTraces : Option Nat) (order : List Nat) : List Nat :=
  match numTraces with
  | none => order
  | some n => order.take n

/-- One iteration, lines 715-737. -/
def iteration (spec : Spec) (files : List Trace) (numTraces : Option Nat) (numUpdates : Nat) (order : List Nat) :
    List Event × Option Err :=
  match joinAll files none (select numTraces order) with
  | .error e => ([], some e)
  | .ok none => ([], some .attribute)
  | .ok (some t) =>
    match statesArg t with
    | .error e => ([], some e)
    | .ok st =>
      let result := experience spec false ⟨st, actionsArg t, .many t.terminal, .many t.reward, .absent⟩
      match result.2 with
      | some e => (result.1.map .fed, some e)
      | none => (result.1.map .fed ++ List.replicate numUpdates .update, none)

/-- `Agent.pretrain`; one order of the files for each iteration. -/
def pretrain (spec : Spec) (files : List Trace) (numTraces : Option Nat) (numUpdates : Nat) :
    List (List Nat) → List Event × Option Err
  | [] => ([], none)
  | order :: r =>
    let first := iteration spec files numTraces numUpdates order
    match first.2 with
    | some e => (first.1, some e)
    | none =>
      let rest := pretrain spec files numTraces numUpdates r
      (first.1 ++ rest.1, rest.2)

end Verif.Feed
