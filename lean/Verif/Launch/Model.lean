/-!
# Model of the creation of runners

Models `Runner.__init__` (`tensorforce/execution/runner.py` 79-215) and the remote part of `Environment.create`
(`tensorforce/environments/environment.py` 78-131).

Simplifications:
* An environment argument is a specification or an object, with what the environment created from it answers: whether it is vectorizable,
  its number of actors, and its states and actions, for which a number stands. For the creation from a specification see C44.
* Socket environments are those served at host and port, given by a function. A socket without host or without port raises a TypeError.
* Agents are objects, dictionaries (with or without the key `directory`), strings, or others (classes and functions). The limit of time steps
  only matters for sockets.
-/

namespace Verif.Launch

inductive Err where
  /-- TensorforceError -/
  | tensorforce
  /-- TypeError -/
  | type_
  /-- AssertionError -/
  | assertion
  /-- IndexError -/
  | index
  /-- AttributeError -/
  | attribute
  /-- ValueError -/
  | value
  deriving Repr, DecidableEq

/-- An environment argument other than `None`. -/
structure Source where
  object : Bool
  vectorizable : Bool
  actors : Nat
  spaces : Nat
  deriving Repr, DecidableEq

inductive Remote where
  | multiprocessing | socketClient | socketServer | other
  deriving Repr, DecidableEq

/-- The argument `num_parallel`. -/
inductive Count where
  | none
  | int (z : Int)
  | other
  deriving Repr, DecidableEq

/-- The argument `environments`. -/
inductive Sources where
  | none
  | list (l : List Source)
  | other
  deriving Repr, DecidableEq

/-- The arguments `host` and `port`. -/
inductive Each (α : Type) where
  | none
  | one (x : α)
  | many (l : List α)
  deriving Repr, DecidableEq

/-- The argument `agent`. -/
inductive Agent where
  | none
  | object
  | dict (directory : Bool)
  | text (s : List Char)
  | other
  deriving Repr, DecidableEq

structure Args where
  agent : Agent
  environment : Option Source
  limit : Option Nat
  numParallel : Count
  environments : Sources
  evaluation : Bool
  remote : Option Remote
  blocking : Bool
  host : Each String
  port : Each Int
  deriving Repr, DecidableEq

/-- An environment as created: the argument if local or in another process, and the address if a socket. -/
structure Made where
  source : Option Source
  remote : Option Remote
  address : Option (String × Int)
  answers : Source
  deriving Repr, DecidableEq

/-- `Environment.create` (environment.py 78-131) for the arguments of the runner. -/
def createEnv (net : String × Int → Source) (environment : Option Source) (limit : Option Nat) (remote : Option Remote) (blocking : Bool)
    (host : Option String) (port : Option Int) : Except Err Made :=
  if remote ≠ some .multiprocessing ∧ remote ≠ some .socketClient ∧ blocking = true then .error .tensorforce
  else if remote ≠ some .socketClient ∧ remote ≠ some .socketServer ∧ host.isSome = true then .error .tensorforce
  else if remote ≠ some .socketClient ∧ remote ≠ some .socketServer ∧ port.isSome = true then .error .tensorforce
  else match remote with
    | some .multiprocessing =>
      match environment with
      | none => .error .tensorforce
      | some s => .ok ⟨some s, remote, none, s⟩
    | some .socketClient =>
      if environment.isSome then .error .tensorforce
      else if limit.isSome then .error .tensorforce
      else match host, port with
        | some h, some p => .ok ⟨none, remote, some (h, p), net (h, p)⟩
        | _, _ => .error .type_
    | some .socketServer => .error .attribute
    | some .other => .error .tensorforce
    | none =>
      match environment with
      | none => .error .tensorforce
      | some s => .ok ⟨some s, none, none, s⟩

/-- Lines 83-146: the environments to create, and `num_parallel`. -/
def instances (a : Args) : Except Err (List (Option Source) × Int) :=
  match a.environment, a.environments with
  | none, .none =>
    if a.remote ≠ some .socketClient then .error .tensorforce
    else match a.numParallel with
      | .none => .error .tensorforce
      | .int n => .ok (List.replicate n.toNat none, n)
      | .other => .error .type_
  | none, .other => .error .type_
  | none, .list l =>
    if l = [] then .error .tensorforce
    else if a.numParallel ≠ .none ∧ a.numParallel ≠ .int l.length then .error .tensorforce
    else .ok (l.map some, l.length)
  | some e, es =>
    match a.numParallel with
    | .none =>
      if es ≠ .none then .error .tensorforce
      else if a.evaluation then .error .tensorforce
      else .ok ([some e], 1)
    | .other => .error .type_
    | .int n =>
      if n < 2 then .error .tensorforce
      else if es ≠ .none then .error .tensorforce
      else if e.object then .error .tensorforce
      else .ok (List.replicate n.toNat (some e), n)

/-- Lines 148-157. -/
def ports (host : Each String) (port : Each Int) (n : Nat) : Except Err (List (Option Int)) :=
  match port with
  | .many l => if l.length ≠ n then .error .tensorforce else .ok (l.map some)
  | .none =>
    match host with
    | .one _ => if n = 0 then .ok [] else .error .type_
    | _ => .ok (List.replicate n none)
  | .one p =>
    match host with
    | .one _ => .ok ((List.range n).map (fun (k : Nat) => some (p + k)))
    | _ => .ok (List.replicate n (some p))

/-- Lines 158-164. -/
def hosts (host : Each String) (n : Nat) : Except Err (List (Option String)) :=
  match host with
  | .many l => if l.length ≠ n then .error .tensorforce else .ok (l.map some)
  | .none => .ok (List.replicate n none)
  | .one h => .ok (List.replicate n (some h))

/-- Line 167: whether the first environment is an object. -/
def external : List (Option Source) → Bool
  | some s :: _ => s.object
  | _ => false

/-- Lines 190-199: the further environments. -/
def further (net : String × Int → Source) (a : Args) (ext : Bool) (first : Made) :
    List (Option Source) → List (Option String) → List (Option Int) → Except Err (List Made)
  | [], _, _ => .ok []
  | e :: es, h :: hs, p :: ps =>
    if (e.map (·.object)).getD false ≠ ext then .error .assertion
    else match createEnv net e a.limit a.remote a.blocking h p with
      | .error err => .error err
      | .ok m =>
        if m.answers.spaces ≠ first.answers.spaces then .error .assertion
        else match further net a ext first es hs ps with
          | .error err => .error err
          | .ok ms => .ok (m :: ms)
  | _ :: _, _, _ => .error .index

/-- How the agent is made: an object used, created, or loaded; and the number of interactions passed on. -/
inductive Origin where
  | used | created | loaded
  deriving Repr, DecidableEq

structure Plan where
  environments : List Made
  vectorized : Option Nat
  external : Bool
  origin : Origin
  interactions : Option Int
  deriving Repr, DecidableEq

/-- `'directory' in text` -/
def occurs (w : List Char) : List Char → Bool
  | [] => w.isEmpty
  | c :: l => w.isPrefixOf (c :: l) || occurs w l

/-- `'directory' in agent`, line 204, for an agent which is no object. -/
def directory : Agent → Except Err Bool
  | .dict b => .ok b
  | .text s => .ok (occurs "directory".toList s)
  | _ => .error .type_

/-- Lines 203-215, `count` is the number of environments, without the one for evaluation. -/
def makeAgent (agent : Agent) (count : Int) : Except Err (Origin × Option Int) :=
  if agent = .object then .ok (.used, if 1 < count then some count else none)
  else match directory agent with
    | .error e => .error e
    | .ok true =>
      match agent with
      | .dict _ => .ok (.loaded, some count)
      | _ => .error .type_
    | .ok false => .ok (.created, if 1 < count then some count else none)

/-- Lines 176-188: the number of parallel interactions, `num_vectorized`, and whether further environments are created. -/
def vectorize (a : Args) (first : Made) (n : Int) : Except Err (Int × Option Nat × Bool) :=
  if a.remote = none ∧ 1 < n ∧ first.answers.vectorizable = true then
    if a.evaluation then .error .tensorforce else .ok (n, some n.toNat, false)
  else if 1 < first.answers.actors then
    if n ≠ 1 then .error .assertion else .ok (first.answers.actors, some first.answers.actors, true)
  else .ok (n, none, true)

/-- Lines 166-199. -/
def createAll (net : String × Int → Source) (a : Args) (es : List (Option Source)) (n : Int) (hs : List (Option String)) (ps : List (Option Int)) :
    Except Err (List Made × Int × Option Nat) :=
  match es, hs, ps with
  | e :: es', h :: hs', p :: ps' =>
    match createEnv net e a.limit a.remote a.blocking h p with
    | .error err => .error err
    | .ok first =>
      match vectorize a first n with
      | .error err => .error err
      | .ok (m, v, more) =>
        match further net a (external es) first (if more then es' else []) hs' ps' with
        | .error err => .error err
        | .ok ms => .ok (first :: ms, m, v)
  | _, _, _ => .error .index

/-- `Runner.__init__` -/
def create (net : String × Int → Source) (a : Args) : Except Err Plan :=
  match instances a with
  | .error e => .error e
  | .ok (es, n) =>
    match ports a.host a.port n.toNat with
    | .error e => .error e
    | .ok ps =>
      match hosts a.host n.toNat with
      | .error e => .error e
      | .ok hs =>
        match createAll net a es n hs ps with
        | .error e => .error e
        | .ok (envs, m, v) =>
          match makeAgent a.agent (m - if a.evaluation then 1 else 0) with
          | .error e => .error e
          | .ok (o, k) => .ok ⟨envs, v, external es, o, k⟩

end Verif.Launch
