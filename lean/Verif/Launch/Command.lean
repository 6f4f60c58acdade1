import Verif.Launch.Model

/-!
# Model of the command line program

Models `run.py` (lines 133-231): what is made of the parsed command line arguments, the environment and agent specifications, the addresses, the
calls of the runner, and the results stored with `--path`; and the combination of callbacks by `Runner.run`
(`tensorforce/execution/runner.py` 354-372).

Simplifications:
* Parsing of the command line by `argparse`, imports of modules, files and plots are left out. Texts are lists of characters.
* The conversion `int(text)` is a parameter.
* Of the results only one of the four tables is modelled, which are filled alike.
-/

namespace Verif.Launch

abbrev Text := List Char

structure Line where
  agent : Option Text
  checkpoints : Option Text
  summaries : Option Text
  recordings : Option Text
  environment : Option Text
  level : Option Text
  limit : Option Nat
  visualize : Bool
  visualizeDirectory : Option Text
  numParallel : Option Int
  remote : Option Remote
  blocking : Bool
  host : Option Text
  port : Option Text
  evaluation : Bool
  episodes : Option Int
  repetitions : Nat
  path : Option Text
  deriving Repr, DecidableEq

/-- The dictionary for the environment, lines 155-164. -/
structure EnvSpec where
  name : Text
  level : Option Text
  visualize : Bool
  directory : Option Text
  deriving Repr, DecidableEq

/-- The value for saver and summarizer: a directory, or a dictionary with directory and file name. -/
inductive Conf where
  | path (directory : Text)
  | named (directory filename : Text)
  deriving Repr, DecidableEq

structure AgentSpec where
  name : Text
  saver : Option Conf
  summarizer : Option Conf
  recorder : Option Text
  deriving Repr, DecidableEq

/-- The arguments of the runner. -/
structure Call where
  agent : AgentSpec
  environment : Option EnvSpec
  limit : Option Nat
  evaluation : Bool
  numParallel : Option Int
  remote : Option Remote
  blocking : Bool
  host : Each Text
  port : Each Int
  deriving Repr, DecidableEq

inductive Action where
  | server (environment : Option EnvSpec) (limit : Option Nat) (port : Each Int)
  | runs (repetitions : Nat) (call : Call)
  deriving Repr, DecidableEq

/-- `text.split(',')` -/
def split : Text → List Text
  | [] => [[]]
  | c :: l =>
    if c = ',' then [] :: split l
    else match split l with
      | [] => [[c]]
      | x :: xs => (c :: x) :: xs

/-- `os.path.splitext(path)[1] == ''`: the last component has no dot after its first other character. -/
def plain (path : Text) : Bool :=
  ¬ (((path.reverse.takeWhile (· ≠ '/')).reverse.dropWhile (· = '.')).contains '.')

/-- Lines 137-142. -/
def checkPath (l : Line) : Except Err Unit :=
  match l.path with
  | none => .ok ()
  | some p => if ¬ plain p then .error .assertion else if l.episodes.isNone then .error .assertion else .ok ()

/-- Lines 155-164. -/
def envSpec (l : Line) : Except Err (Option EnvSpec) :=
  match l.environment with
  | some e => .ok (some ⟨e, l.level, l.visualize, l.visualizeDirectory⟩)
  | none => if l.level.isSome || l.visualize || l.visualizeDirectory.isSome then .error .type_ else .ok none

/-- Lines 166-167. -/
def hostArg : Option Text → Each Text
  | none => .none
  | some h => if h.contains ',' then .many (split h) else .one h

/-- `[int(x) for x in …]` -/
def ints (int : Text → Option Int) : List Text → Except Err (List Int)
  | [] => .ok []
  | x :: xs =>
    match int x with
    | none => .error .value
    | some z =>
      match ints int xs with
      | .error e => .error e
      | .ok zs => .ok (z :: zs)

/-- Lines 168-171. -/
def portArg (int : Text → Option Int) : Option Text → Except Err (Each Int)
  | none => .ok .none
  | some p =>
    if p.contains ',' then
      match ints int (split p) with
      | .error e => .error e
      | .ok l => .ok (.many l)
    else match int p with
      | none => .error .value
      | some z => .ok (.one z)

/-- Lines 185-191 and 192-198. -/
def conf : Option Text → Except Err (Option Conf)
  | none => .ok none
  | some t =>
    if t.contains ',' then
      match split t with
      | [d, f] => .ok (some (.named d f))
      | _ => .error .value
    else .ok (some (.path t))

/-- Lines 180-201. Without agent, `args.saver` does not exist. -/
def agentSpec (l : Line) : Except Err AgentSpec :=
  match l.agent with
  | none => .error .attribute
  | some a =>
    match conf l.checkpoints with
    | .error e => .error e
    | .ok s =>
      match conf l.summaries with
      | .error e => .error e
      | .ok z => .ok ⟨a, s, z, l.recordings⟩

/-- Lines 133-215. -/
def command (int : Text → Option Int) (l : Line) : Except Err Action :=
  match checkPath l with
  | .error e => .error e
  | .ok _ =>
    match envSpec l with
    | .error e => .error e
    | .ok env =>
      match portArg int l.port with
      | .error e => .error e
      | .ok port =>
        if l.remote = some .socketServer then .ok (.server env l.limit port)
        else match agentSpec l with
          | .error e => .error e
          | .ok agent =>
            .ok (.runs l.repetitions ⟨agent, env, l.limit, l.evaluation, l.numParallel, l.remote, l.blocking, hostArg l.host, port⟩)

section
variable {R : Type}

/-- `rewards[k].append(x)` -/
def append : Nat → R → List (List R) → Except Err (List (List R))
  | _, _, [] => .error .index
  | 0, x, l :: ls => .ok ((l ++ [x]) :: ls)
  | k + 1, x, l :: ls =>
    match append k x ls with
    | .error e => .error e
    | .ok ls' => .ok (l :: ls')

/-- One run: the callback (lines 148-153) after each episode, `k` is the number of episodes before. -/
def recordRun : Nat → List R → List (List R) → Except Err (List (List R))
  | _, [], t => .ok t
  | k, x :: xs, t =>
    match append k x t with
    | .error e => .error e
    | .ok t' => recordRun (k + 1) xs t'

/-- All repetitions. -/
def recordAll : List (List R) → List (List R) → Except Err (List (List R))
  | [], t => .ok t
  | r :: rs, t =>
    match recordRun 0 r t with
    | .error e => .error e
    | .ok t' => recordAll rs t'

end

/-- What a callback returns. -/
inductive Ret where
  | bool (b : Bool)
  /-- nothing -/
  | none
  deriving Repr, DecidableEq

/-- `if x` -/
def Ret.truth : Ret → Bool
  | .bool b => b
  | .none => false

/-- `x and y` -/
def Ret.and (x y : Ret) : Ret := if x.truth then y else x

/-- Lines 357-363 of runner.py: `result` after each of the callbacks. -/
def sequential : Ret → List Ret → Ret
  | result, [] => result
  | result, x :: xs =>
    match result with
    | .bool b => sequential (Ret.and (.bool b) x) xs
    | .none => sequential .none xs

/-- Lines 354-372: whether the run goes on, for no callback, one, or several. -/
def goesOn : Each Ret → Bool
  | .none => true
  | .one (.bool b) => b
  | .one .none => true
  | .many l => (sequential (.bool true) l).truth

end Verif.Launch
