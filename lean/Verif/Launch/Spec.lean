import Verif.Launch.Model

/-!
# The documented arguments of the runner

Written from the documentation of `Runner` (`runner.py` 24-77).
-/

namespace Verif.Launch

instance {α : Type} [DecidableEq α] : DecidableEq (Except Err α)
  | .ok a, .ok b => if h : a = b then .isTrue (by rw [h]) else .isFalse (fun e => h (by injection e))
  | .error a, .error b => if h : a = b then .isTrue (by rw [h]) else .isFalse (fun e => h (by injection e))
  | .ok _, .error _ => .isFalse (fun e => by injection e)
  | .error _, .ok _ => .isFalse (fun e => by injection e)

/-- The documented ways to give environments which are not sockets, and the environments meant. -/
inductive Documented (a : Args) : List Source → Prop
  | single (e : Source) : a.environment = some e → a.environments = .none → a.numParallel = .none → a.evaluation = false → Documented a [e]
  | parallel (e : Source) (n : Nat) : a.environment = some e → a.environments = .none → a.numParallel = .int n → 2 ≤ n → e.object = false →
      Documented a (List.replicate n e)
  | list (l : List Source) : a.environment = none → a.environments = .list l → (a.numParallel = .none ∨ a.numParallel = .int l.length) →
      (if a.evaluation then 2 else 1) ≤ l.length → Documented a l

/-- Local or in other processes: no address, and blocking only in other processes. -/
def Direct (a : Args) : Prop :=
  (a.remote = none ∧ a.blocking = false ∨ a.remote = some .multiprocessing) ∧ a.host = .none ∧ a.port = .none

/-- All objects or all specifications, and with the same states and actions. -/
def Alike (l : List Source) : Prop := ∀ x ∈ l, ∀ y ∈ l, x.object = y.object ∧ x.spaces = y.spaces

/-- Environments which are neither vectorized nor have several actors. -/
def Simple (a : Args) (l : List Source) : Prop := ∀ x ∈ l, x.actors ≤ 1 ∧ (x.vectorizable = false ∨ a.remote ≠ none ∨ l.length ≤ 1)

/-- An agent as documented: an object, a specification, or arguments of `Agent.load` with `directory`; a name or path which does not contain
the word "directory". -/
inductive GoodAgent : Agent → Origin → Prop
  | object : GoodAgent .object .used
  | dict : GoodAgent (.dict false) .created
  | load : GoodAgent (.dict true) .loaded
  | text (s : List Char) : (∀ p q, s ≠ p ++ "directory".toList ++ q) → GoodAgent (.text s) .created

/-- The number of interactions given to the agent. -/
def interactions (o : Origin) (n : Int) : Option Int := if o = .loaded then some n else if 1 < n then some n else none

/-- The address of environment `k`: with a single host and a single port the ports increase. -/
def addressOf (host : Each String) (port : Each Int) (k : Nat) : Option (String × Int) :=
  match host, port with
  | .one h, .one p => some (h, p + k)
  | .one h, .many ps => ps[k]?.map (fun p => (h, p))
  | .many hs, .one p => hs[k]?.map (fun h => (h, p))
  | .many hs, .many ps => match hs[k]?, ps[k]? with
    | some h, some p => some (h, p)
    | _, _ => none
  | _, _ => none

/-- Lists have one entry for each environment. -/
def Fits {α : Type} (n : Nat) : Each α → Prop
  | .none => False
  | .one _ => True
  | .many l => l.length = n

end Verif.Launch
