import Verif.Feed.Model

/-!
# `Agent.act`: forms of states, internal states and actions

Source: `tensorforce/agents/recorder.py` (lines 154-327), `tensorforce/agents/agent.py` (lines 420-500).

Simplifications, besides those of `Verif.Feed.Model`.
* The policy is a function from the tensors it receives to action and internal tensors (`Model.act`, `Model.independent_act`).
* A number and an array without dimensions are the same (`.item()`).
* `parallel` is an integer, or a list of integers; `internals` is absent, a list of dictionaries, a dictionary, or something else.
* Recording of traces, the counter of time steps and saving are left out (C14, C16, C40).
* The call handed to the policy is part of the result.
-/

namespace Verif.Act

open Verif.Feed

/-- Argument `parallel`. -/
inductive ParallelIn where
  | one (p : Int)
  | many (l : List Int)
  deriving Repr, DecidableEq

/-- Arguments of `act`. -/
structure Args where
  states : StatesIn
  internals : InternalsIn := .absent
  parallel : ParallelIn := .one 0
  independent : Bool := false
  deterministic : Bool := true

/-- What the policy receives; `deterministic` only in independent mode. -/
structure Call where
  states : Flat
  internals : Flat
  masks : Flat
  parallel : List Int
  deterministic : Option Bool
  deriving Repr, DecidableEq

/-- The policy: actions and internal states. -/
abbrev Net := Call → Flat × Flat

/-- Returned actions. -/
inductive Actions where
  /-- action of one time step, or array of actions -/
  | value (x : Nd)
  | values (l : List Nd)
  /-- actions of one time step, or arrays of actions -/
  | dict (d : Dict)
  | dicts (l : List Dict)
  deriving Repr, DecidableEq

/-- Returned internal states. -/
inductive Internals where
  | dict (d : Dict)
  | dicts (l : List Dict)
  deriving Repr, DecidableEq

structure Result where
  actions : Actions
  internals : Option Internals
  call : Call
  deriving Repr, DecidableEq

/-- Whether `internals is None`. -/
def absent : InternalsIn → Bool
  | .absent => true
  | _ => false

/-- Checks of the arguments, lines 157-172. -/
def checkArgs (spec : Spec) (a : Args) : Except Err Unit :=
  if a.independent then
    if a.parallel ≠ .one 0 then .error .invalid
    else if absent a.internals && !spec.internals.isEmpty then .error .required
    else .ok ()
  else if absent a.internals then .ok ()
  else .error .invalid

/-- Internal states, lines 181-203. -/
def internalsForm (iter : Bool) : InternalsIn → Except Err Flat
  | .absent => .ok []
  | .list ds =>
    match ds with
    | [] => .error .index
    | d :: r => stackDicts d r
  | .dict d => if iter then .error .type else .ok (keyed d)
  | .other => .error .type

/-- Internal states of a call in independent mode, lines 179-218. -/
def internalsArg (inp : Input) (i : InternalsIn) : Except Err Flat := do
  let f ← internalsForm (inp.iter == some true) i
  let f := expandUnless inp.batched f
  checkRows inp.num f
  pure f

/-- `parallel` as an array: one dimension, or two with one row. -/
inductive Par where
  | flat (l : List Int)
  | nested (l : List Int)
  deriving Repr, DecidableEq

/-- The indices of either. -/
def Par.indices : Par → List Int
  | .flat l => l
  | .nested l => l

/-- `parallel` of a call, lines 222-243: a number has no length. -/
def parallelArg (inp : Input) : ParallelIn → Except Err Par
  | .one p => if inp.batched then .error .index else if 1 = inp.num then .ok (.flat [p]) else .error .value
  | .many l =>
    if inp.batched then
      if l.length = inp.num then .ok (.flat l) else .error .value
    else if 1 = inp.num then .ok (.nested l) else .error .value

/-- Position of an index of an array of length `n`; negative indices count from the end. -/
def position (n : Nat) (p : Int) : Except Err Nat :=
  if 0 ≤ p then
    if p < n then .ok p.toNat else .error .index
  else if -(n : Int) ≤ p then .ok (p + n).toNat
  else .error .index

/-- Positions of an array of indices; an empty one has the wrong type. -/
def positions (n : Nat) (l : List Int) : Except Err (List Nat) :=
  if l.isEmpty then .error .index else l.mapM (position n)

/-- `timestep_completed[parallel] = False` -/
def mark (flags : List Bool) (ps : List Nat) : List Bool := ps.foldl (fun l p => l.set p false) flags

/-- Inputs after the checks of the recorder. -/
structure Ready where
  input : Input
  internals : Flat
  parallel : Par
  positions : List Nat
  deriving Repr, DecidableEq

/-- The mode-specific arguments, lines 179-252; `flags` is `timestep_completed`. -/
def modeArgs (flags : List Bool) (a : Args) (inp : Input) : Except Err Ready :=
  if a.independent then do
    let internals ← internalsArg inp a.internals
    pure ⟨inp, internals, .flat [], []⟩
  else do
    let par ← parallelArg inp a.parallel
    let ps ← positions flags.length par.indices
    check (ps.all (fun p => flags.getD p false)) .order
    pure ⟨inp, [], par, ps⟩

/-- Everything before the flags are set, lines 157-252. -/
def before (spec : Spec) (flags : List Bool) (a : Args) : Except Err Ready := do
  checkArgs spec a
  let inp ← processStates spec.states a.states
  modeArgs flags a inp

/-- `parallel_spec.to_tensor` -/
def parallelTensor (n : Nat) : Par → Except Err (List Int)
  | .nested _ => .error .shape
  | .flat l => if l.all (fun p => 0 ≤ p && p < n) then .ok l else .error .range

/-- Internal states as tensors, `agent.py` lines 444-447. -/
def internalsTensor (spec : Spec) (a : Args) (r : Ready) : Except Err Flat :=
  if a.independent && !absent a.internals then toTensors (internalEnts spec.internals) true r.internals else .ok []

/-- Tensors for the policy, `agent.py` lines 425-460. -/
def tensors (spec : Spec) (n : Nat) (a : Args) (r : Ready) : Except Err Call := do
  let masks := popMasks r.input.num spec.actions r.input.states
  let states ← dropName spec.states masks.2
  let states ← toTensors spec.states false states
  let internals ← internalsTensor spec a r
  let masks ← toTensors (maskEnts spec.actions) false masks.1
  if a.independent then pure ⟨states, internals, masks, [], some a.deterministic⟩
  else do
    let par ← parallelTensor n r.parallel
    pure ⟨states, [], masks, par, none⟩

/-- Actions and internal states from tensors, `agent.py` lines 488-495; the checks are those of the inputs. -/
def outputs (spec : Spec) (a : Args) (out : Flat × Flat) : Except Err (Flat × Flat) := do
  let actions ← toTensors (actionEnts spec.actions) false out.1
  if a.independent && !spec.internals.isEmpty then do
    let internals ← toTensors (internalEnts spec.internals) false out.2
    pure (actions, internals)
  else pure (actions, [])

/-- `x[i]` -/
def rowAt (i : Nat) (x : Nd) : Except Err Nd :=
  match x.shape with
  | [] => .error .index
  | n :: s => if i < n then .ok ⟨s, (x.data.drop (i * size s)).take (size s)⟩ else .error .index

/-- Row of each array by name. -/
def rowsAt (f : Flat) (i : Nat) : Except Err Dict := (named f).mapM (fun e => do
  let y ← rowAt i e.2
  pure (e.1, y))

/-- `actions.singleton()` -/
def theValue : Flat → Except Err Nd
  | [(none, x)] => .ok x
  | _ => .error .assertion

/-- Unbatching of actions, lines 287-302 and 317-320. -/
def unbatchActions (one : Bool) (inp : Input) (f : Flat) : Except Err Actions :=
  if inp.batched then
    if one then do
      let x ← theValue f
      if inp.iter == some true then do
        let l ← (List.range inp.num).mapM (fun i => rowAt i x)
        pure (.values l)
      else pure (.value x)
    else if inp.iter == some true then do
      let l ← (List.range inp.num).mapM (rowsAt f)
      pure (.dicts l)
    else pure (.dict (named f))
  else if one then do
    let x ← theValue f
    let y ← rowAt 0 x
    pure (.value y)
  else do
    let d ← rowsAt f 0
    pure (.dict d)

/-- Unbatching of internal states, lines 304-312 and 321-322. -/
def unbatchInternals (inp : Input) (f : Flat) : Except Err Internals :=
  if inp.batched then
    if inp.iter == some true then do
      let l ← (List.range inp.num).mapM (rowsAt f)
      pure (.dicts l)
    else pure (.dict (named f))
  else do
    let d ← rowsAt f 0
    pure (.dict d)

/-- What is returned, lines 286-327. -/
def returned (spec : Spec) (a : Args) (inp : Input) (call : Call) (out : Flat × Flat) : Except Err Result := do
  let actions ← unbatchActions (single spec.actions) inp out.1
  if a.independent && !absent a.internals then do
    let internals ← unbatchInternals inp out.2
    pure ⟨actions, some internals, call⟩
  else pure ⟨actions, none, call⟩

/-- Everything after the flags are set: `fn_act` and unbatching. -/
def after (spec : Spec) (net : Net) (n : Nat) (a : Args) (r : Ready) : Except Err Result := do
  let call ← tensors spec n a r
  let out ← outputs spec a (net call)
  returned spec a r.input call out

/-- `Agent.act`: the flags `timestep_completed` afterwards, and the result. -/
def act (spec : Spec) (net : Net) (flags : List Bool) (a : Args) : List Bool × Except Err Result :=
  match before spec flags a with
  | .error e => (flags, .error e)
  | .ok r => (mark flags r.positions, after spec net flags.length a r)

end Verif.Act
