import Verif.Utils.PyLemmas

/-!
# Model of `Environment.create` for local environments

Models `tensorforce/environments/environment.py`, `Environment.create`, lines 131-247 (the branches with
`remote=None`), on top of the model of `deep_disjoint_update`.

Simplifications: file contents, keyword registry, library import and constructors are parameters of the theorems; the
recursion has a depth bound (exceeding it is an error, as Python's recursion limit); arguments `remote`, `blocking`, `host`
and `port` found in a specification lead to the outcome `handed`, not modelled further; all exceptions are one outcome; the
argument `level` (lines 223-226, 238-241) comes last instead of first.
-/

namespace Verif.Env.Create

open Verif.Utils.Py

/-- Values that are not containers. -/
inductive Atom where
  | none
  | num (n : Int)
  | fn (i : Nat)
  | str (s : String)
  /-- An `EnvironmentWrapper` or `RemoteEnvironment` object with its time limit. -/
  | wrapper (i : Nat) (limit : Option Int)
  /-- `EnvironmentWrapper`, `RemoteEnvironment` or a subclass. -/
  | wrapperClass
  | inst (i : Nat)
  | cls (i : Nat)
  /-- A `gym.Env` object or class. -/
  | gym (i : Nat)
  deriving DecidableEq

abbrev V := Val Atom
abbrev Kw := Ents Atom

def none' : V := .atom .none

/-- The surroundings: JSON files, keywords, importable modules, constructors (`false`: raises). -/
structure World where
  file : String → Option Kw
  registry : String → Option V
  library : String → Option V
  construct : Nat → Kw → Bool

/-- Where the returned environment comes from. -/
inductive Source where
  | wrapped (i : Nat) (limit : Option Int)
  | given (i : Nat)
  | built (c : Nat) (kwargs : Kw)

/-- The returned environment: `EnvironmentWrapper(environment, max_episode_timesteps, reward_shaping)`; for an existing
wrapper the object itself. -/
structure Env where
  source : Source
  limit : V
  shaping : V

inductive Out where
  | error
  | handed
  | env (e : Env)

/-- `kwargs.pop(key, …)`. -/
def del (k : String) : Kw → Kw
  | .nil => .nil
  | .cons j x es => if j = k then es else .cons j x (del k es)

/-- `kwargs.pop` under a condition. -/
def dropIf (b : Bool) (k : String) (kw : Kw) : Kw := if b then del k kw else kw

def has (k : String) (kw : Kw) : Bool := (kw.find k).isSome

/-- Keyword arguments that select the remote modes. -/
def remoteKeys : List String := ["remote", "blocking", "host", "port"]

/-- The value of a time limit. -/
def limitVal : Option Int → V
  | none => .atom .none
  | some n => .atom (.num n)

/-- Lines 167-180 and 183-199: specification dictionary merged into the keyword arguments, then the recursive call with
its duplicate keyword check. The result is the new arguments. -/
def unpack (spec : Kw) (limit shaping : V) (kwargs : Kw) : Option (V × V × V × Kw) :=
  match merge kwargs spec with
  | none => none
  | some kw =>
    let env := ((kw.find "environment").or (kw.find "type")).getD (.atom (.str "default"))
    let kw := del "environment" (del "type" kw)
    if pyEq env none' then none
    else
      let lim := if pyEq limit none' then (kw.find "max_episode_timesteps").getD none' else limit
      let kw := dropIf (pyEq limit none') "max_episode_timesteps" kw
      let sha := if pyEq shaping none' then (kw.find "reward_shaping").getD none' else shaping
      let kw := dropIf (pyEq shaping none') "reward_shaping" kw
      if has "max_episode_timesteps" kw || has "reward_shaping" kw then none
      else some (env, lim, sha, kw)

/-- `Environment.create(environment, max_episode_timesteps, reward_shaping, **kwargs)`. -/
def create (w : World) : Nat → V → V → V → Kw → Out
  | 0, _, _, _, _ => .error
  | fuel + 1, env, limit, shaping, kwargs =>
    if remoteKeys.any (has · kwargs) then .handed
    else
      match env with
      | .atom (.wrapper i l) =>
        if !pyEq limit none' && !pyEq limit (limitVal l) then .error
        else if kwargs.length ≠ 0 then .error
        else .env ⟨.wrapped i l, limitVal l, none'⟩
      | .atom .wrapperClass => .error
      | .atom (.inst i) => .env ⟨.given i, limit, shaping⟩
      | .atom (.cls c) => if w.construct c kwargs then .env ⟨.built c kwargs, limit, shaping⟩ else .error
      | .dct spec =>
        match unpack spec limit shaping kwargs with
        | none => .error
        | some (e, l, s, kw) => create w fuel e l s kw
      | .atom (.str name) =>
        match w.file name with
        | some spec =>
          match unpack spec limit shaping kwargs with
          | none => .error
          | some (e, l, s, kw) => create w fuel e l s kw
        | none =>
          match w.registry name with
          | some e => create w fuel e limit shaping kwargs
          | none =>
            match w.library name with
            | some e => create w fuel e limit shaping kwargs
            | none =>
              if has "level" kwargs then .error
              else create w fuel (.atom (.str "gym")) limit shaping (kwargs.put "level" (.atom (.str name)))
      | .atom (.gym i) =>
        if has "level" kwargs then .error
        else create w fuel (.atom (.str "gym")) limit shaping (kwargs.put "level" (.atom (.gym i)))
      | _ => .error

end Verif.Env.Create
