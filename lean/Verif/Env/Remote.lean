/-!
# Model of the remote environment protocol

Models `tensorforce/environments/environment.py`, `RemoteEnvironment`: the server loop `remote` (lines 678-746), `send`
(756-767), `receive` (769-787), attribute access (795-819), `close` (845-855), `reset`/`execute` (857-868), the blocking
`start_reset`/`start_execute`/`receive_execute` (870-916) and, in `Thread`, their non-blocking variants.

Simplifications: the remote object is arbitrary; results are optional values (`none` is Python's `None`); the elapsed
seconds attached to `reset`/`execute` results are left out; the transport delivers messages in order; the server
answers before the client waits for the answer (the client is synchronous). A server that has ended may or may not make
the next transmission fail: parameter `broken`.
-/

namespace Verif.Env.Remote

/-- Exceptions raised by the remote object; the server treats `AttributeError` specially. -/
inductive Exc where
  | attributeError
  | other
  deriving DecidableEq, Repr

/-- What `getattr` finds. -/
inductive Attr (V : Type) where
  | callable
  | value (v : Option V)
  deriving DecidableEq, Repr

abbrev Kwargs (V : Type) := List (String × V)

/-- The object behind the server. -/
structure Obj (σ V : Type) where
  attr : σ → String → Option (Attr V)
  call : σ → String → Kwargs V → σ × Except Exc (Option V)
  set : σ → String → V → σ × Except Exc Unit

/-- `setattr` and `result = None`, lines 704-705 and 711-712. -/
def setResult {σ V : Type} (o : Obj σ V) (s : σ) (name : String) (x : V) : σ × Except Exc (Option V) :=
  match o.set s name x with
  | (s', .ok _) => (s', .ok none)
  | (s', .error e) => (s', .error e)

/-- The `except AttributeError` branch, lines 708-712. -/
def fallback {σ V : Type} (o : Obj σ V) (s : σ) (name : String) (kw : Option (Kwargs V)) :
    σ × Except Exc (Option V) :=
  match kw with
  | some [(k, x)] => if k = "value" then setResult o s name x else (s, .error .other)
  | _ => (s, .error .other)

/-- One request, lines 694-712. -/
def handle {σ V : Type} (o : Obj σ V) (s : σ) (name : String) (kw : Option (Kwargs V)) :
    σ × Except Exc (Option V) :=
  match o.attr s name with
  | none => fallback o s name kw
  | some .callable =>
    match kw with
    | none => (s, .ok none)
    | some k =>
      match o.call s name k with
      | (s', .error .attributeError) => fallback o s' name kw
      | r => r
  | some (.value v) =>
    match kw with
    | none => (s, .ok v)
    | some [(k, x)] =>
      if k = "value" then
        match setResult o s name x with
        | (s', .error .attributeError) => fallback o s' name kw
        | r => r
      else (s, .error .other)
    | some _ => (s, .error .other)

/-- Messages from server to client, lines 721, 728-731. -/
inductive Msg (V : Type) where
  | ok (v : Option V)
  | fail
  deriving DecidableEq, Repr

/-- Client, server and the messages in between. `server = none`: the server loop has ended. -/
structure World (σ V : Type) where
  expect : Option String
  isOpen : Bool
  server : Option σ
  queue : List (Msg V)
  /-- The requests the remote object has served so far (bookkeeping for the statements, not in the code). -/
  served : List (String × Option (Kwargs V))

/-- A fresh connection, lines 748-754; `none` if `Environment.create` fails remotely (lines 682-686, 726-743). -/
def World.init {σ V : Type} : Option σ → World σ V
  | some s => { expect := none, isOpen := true, server := some s, queue := [], served := [] }
  | none => { expect := none, isOpen := true, server := none, queue := [.fail, .fail], served := [] }

/-- The server's reaction to a request, lines 688-746: two failure messages on an exception (728-731 and 740-743). -/
def World.serve {σ V : Type} (o : Obj σ V) (w : World σ V) (s : σ) (name : String) (kw : Option (Kwargs V)) :
    World σ V :=
  let w := { w with served := w.served ++ [(name, kw)] }
  match handle o s name kw with
  | (s', .ok v) =>
    { w with server := if name = "close" then none else some s', queue := w.queue ++ [.ok v] }
  | (_, .error _) => { w with server := none, queue := w.queue ++ [.fail, .fail] }

/-- The end of `send`, lines 761-767. -/
def World.sendRaw {σ V : Type} (o : Obj σ V) (broken : Bool) (w : World σ V) (name : String)
    (kw : Option (Kwargs V)) : World σ V × Except Unit Unit :=
  let w := { w with expect := some name }
  if w.isOpen = false then (w, .error ())
  else
    match w.server with
    | none => if broken then ({ w with isOpen := false }, .error ()) else (w, .ok ())
    | some s => (w.serve o s name kw, .ok ())

/-- The end of `receive`, lines 774-787. -/
def World.receiveRaw {σ V : Type} (w : World σ V) : World σ V × Except Unit (Option V) :=
  let w := { w with expect := none }
  if w.isOpen = false then (w, .error ())
  else
    match w.queue with
    | [] => ({ w with isOpen := false }, .error ())
    | .ok v :: q => ({ w with queue := q }, .ok v)
    | .fail :: q => ({ w with queue := q, isOpen := false }, .error ())

/-- `close` without pending thread, lines 848-855. -/
def World.close {σ V : Type} (o : Obj σ V) (broken : Bool) (w : World σ V) : World σ V × Except Unit Unit :=
  let r := if w.expect.isSome then w.receiveRaw else (w, .ok none)
  match r with
  | (w, .error _) => (w, .error ())
  | (w, .ok _) =>
    match w.sendRaw o broken "close" (some []) with
    | (w, .error _) => (w, .error ())
    | (w, .ok _) =>
      match w.receiveRaw with
      | (w, .error _) => (w, .error ())
      | (w, .ok _) => ({ w with isOpen := false }, .ok ())

/-- `send`, lines 756-767. -/
def World.send {σ V : Type} (o : Obj σ V) (broken : Bool) (w : World σ V) (name : String) (kw : Option (Kwargs V)) :
    World σ V × Except Unit Unit :=
  if w.expect.isSome then ((w.close o broken).1, .error ()) else w.sendRaw o broken name kw

/-- `receive`, lines 769-787. -/
def World.receive {σ V : Type} (o : Obj σ V) (broken : Bool) (w : World σ V) (name : String) :
    World σ V × Except Unit (Option V) :=
  if w.expect ≠ some name then ((w.close o broken).1, .error ()) else w.receiveRaw

/-- `send` followed by `receive`. -/
def World.request {σ V : Type} (o : Obj σ V) (broken : Bool) (w : World σ V) (name : String)
    (kw : Option (Kwargs V)) : World σ V × Except Unit (Option V) :=
  match w.send o broken name kw with
  | (w, .error _) => (w, .error ())
  | (w, .ok _) => w.receive o broken name

/-- What the client can do: call a method (`method`: `states`, `actions`, `reset`, `execute`, functions obtained from
`__getattr__`, ...), read or write an attribute, close, and the blocking start/receive pair. -/
inductive Op (V : Type) where
  | method (name : String) (kw : Kwargs V)
  | get (name : String)
  | set (name : String) (v : V)
  | close
  | startReset
  | startExecute (a : V)
  | receiveExecute
  deriving DecidableEq, Repr

/-- What the client sees. -/
inductive Out (V : Type) where
  | value (v : Option V)
  | function           -- `proxy_function`, lines 802-809
  | done
  | raised
  deriving DecidableEq, Repr

/-- Wrap a result. -/
def toOut {V : Type} : Except Unit (Option V) → Out V
  | .ok v => .value v
  | .error _ => .raised

/-- Result of `__getattr__`, lines 795-811. -/
def getOut {V : Type} : Except Unit (Option V) → Out V
  | .ok none => .function
  | .ok (some v) => .value (some v)
  | .error _ => .raised

/-- Result of `__setattr__`, lines 813-819. -/
def setOut {V : Type} : Except Unit (Option V) → Out V
  | .ok none => .done
  | .ok (some _) => .raised
  | .error _ => .raised

def doneOut {V : Type} : Except Unit Unit → Out V
  | .ok _ => .done
  | .error _ => .raised

/-- One client operation. -/
def World.step {σ V : Type} (o : Obj σ V) (broken : Bool) (w : World σ V) : Op V → World σ V × Out V
  | .method name kw => let r := w.request o broken name (some kw); (r.1, toOut r.2)
  | .get name => let r := w.request o broken name none; (r.1, getOut r.2)
  | .set name v => let r := w.request o broken name (some [("value", v)]); (r.1, setOut r.2)
  | .close => let r := w.close o broken; (r.1, doneOut r.2)
  | .startReset => let r := w.send o broken "reset" (some []); (r.1, doneOut r.2)
  | .startExecute a => let r := w.send o broken "execute" (some [("actions", a)]); (r.1, doneOut r.2)
  | .receiveExecute =>                                                   -- lines 899-908
    let r := if w.expect = some "reset" then w.receive o broken "reset" else w.receive o broken "execute"
    (r.1, toOut r.2)

/-- A history of operations. -/
def World.run {σ V : Type} (o : Obj σ V) (broken : Bool) (w : World σ V) : List (Op V) → List (Out V)
  | [] => []
  | p :: ps => (w.step o broken p).2 :: World.run o broken (w.step o broken p).1 ps

/-- The state after a history of operations. -/
def World.after {σ V : Type} (o : Obj σ V) (broken : Bool) (w : World σ V) (ops : List (Op V)) : World σ V :=
  ops.foldl (fun w p => (w.step o broken p).1) w

/-! ## Non-blocking execution -/

/-- Client state of the non-blocking variant, lines 748-754: `thread` is what the running thread is going to do,
`died` marks a thread that has ended with an exception (`_thread` is still set then). -/
structure Thread (σ V : Type) where
  world : World σ V
  thread : Option (String × Kwargs V)
  died : Bool
  observation : Option (Option V)

/-- Operations of the caller, and `tick`: the running thread runs to its end. -/
inductive TOp (V : Type) where
  | startReset
  | startExecute (a : V)
  | poll
  | tick
  deriving DecidableEq, Repr

/-- What the caller sees: `nothing` is the `None` of `receive_execute`. -/
inductive TOut (V : Type) where
  | started
  | nothing
  | result (v : Option V)
  | raised
  | internal
  deriving DecidableEq, Repr

/-- The thread body, `finish_reset` / `finish_execute`, lines 881-884, 894-897: on success the observation is set
and `_thread` cleared; an exception ends the thread only. -/
def Thread.finish {σ V : Type} (o : Obj σ V) (broken : Bool) (t : Thread σ V) : Thread σ V :=
  match t.thread with
  | none => t
  | some (name, kw) =>
    if t.died then t
    else
      match t.world.request o broken name (some kw) with
      | (w, .ok v) => { world := w, thread := none, died := false, observation := some v }
      | (w, .error _) => { t with world := w, died := true }

/-- Lines 870-879, 886-892, 909-916. -/
def Thread.step {σ V : Type} (o : Obj σ V) (broken : Bool) (t : Thread σ V) : TOp V → Thread σ V × TOut V
  | .tick => (t.finish o broken, .internal)
  | .startReset =>
    let t := t.finish o broken                                         -- join
    ({ t with thread := some ("reset", []), died := false, observation := none }, .started)
  | .startExecute a =>
    if t.thread.isSome || t.observation.isSome then (t, .raised)       -- assertion, line 890
    else ({ t with thread := some ("execute", [("actions", a)]), died := false }, .started)
  | .poll =>
    if t.thread.isSome then (t, .nothing)
    else
      match t.observation with
      | none => (t, .raised)                                           -- assertion, line 913
      | some v => ({ t with observation := none }, .result v)

def Thread.run {σ V : Type} (o : Obj σ V) (broken : Bool) (t : Thread σ V) : List (TOp V) → List (TOut V)
  | [] => []
  | p :: ps => (t.step o broken p).2 :: Thread.run o broken (t.step o broken p).1 ps

def Thread.final {σ V : Type} (o : Obj σ V) (broken : Bool) (t : Thread σ V) (ops : List (TOp V)) : Thread σ V :=
  ops.foldl (fun t p => (t.step o broken p).1) t

end Verif.Env.Remote
