import Verif.Runner.Model

/-! # What the runner should do -/

namespace Verif.Runner

/-- What has happened to an environment last. -/
inductive Phase where
  | fresh | resetting | acted | executing | observed | ended | bad
deriving DecidableEq

/-- An episode is a reset, then actions, each decided, executed and observed, until a terminal observation. -/
def Phase.next : Phase → Event → Phase
  | .fresh, .reset _ => .resetting
  | .ended, .reset _ => .resetting
  | .resetting, .act _ => .acted
  | .observed, .act _ => .acted
  | .acted, .execute _ => .executing
  | .executing, .observe _ t => if t = 0 then .observed else .ended
  | _, _ => .bad

def Event.env : Event → Nat
  | .reset n => n
  | .act n => n
  | .evalAct n => n
  | .execute n => n
  | .observe n _ => n

/-- Where environment `n` is after the events (latest first). -/
def phase (n : Nat) : List Event → Phase
  | [] => .fresh
  | e :: log => if e.env = n then (phase n log).next e else phase n log

def Event.isAct : Event → Bool
  | .act _ => true
  | _ => false

def Event.isEnd : Event → Bool
  | .observe _ t => t ≠ 0
  | _ => false

/-! ## Why each event is due -/

/-- The last event of environment `n`. -/
def lastOf (n : Nat) (l : List Event) : Option Event := l.find? fun e => e.env = n

/-- Timesteps of environment `n` since its last reset. -/
def stepsOf (n : Nat) : List Event → Nat
  | [] => 0
  | .reset m :: l => if m = n then 0 else stepsOf n l
  | .execute m :: l => if m = n then stepsOf n l + 1 else stepsOf n l
  | _ :: l => stepsOf n l

/-- Updates reported by the `observe` calls. -/
def updatesOf (o : Oracle) : List Event → Nat
  | [] => 0
  | .observe _ _ :: l => updatesOf o l + o.updated l
  | _ :: l => updatesOf o l

/-- Whether the events are only about evaluation. -/
def Config.alone (c : Config) : Bool := c.evaluation && decide (c.envs = 1)

def Event.isEvalAct : Event → Bool
  | .evalAct _ => true
  | _ => false

/-- Timesteps: actions of the training environments, or of the evaluation environment if there is no other. -/
def timestepsOf (c : Config) (l : List Event) : Nat := l.countP fun e => if c.alone then e.isEvalAct else e.isAct

/-- The callback has returned false. -/
def quit (o : Oracle) : List Event → Bool
  | [] => !o.callback []
  | e :: l => !o.callback (e :: l) || quit o l

/-- Reason to break off episodes. -/
def Stopped (c : Config) (o : Oracle) (l : List Event) : Prop :=
  reached (timestepsOf c l) c.numTimesteps = true ∨ reached (updatesOf o l) c.numUpdates = true ∨ (c.timestepFreq.isSome = true ∧ quit o l = true)

/-- A limit of timesteps or updates has been reached, so that no episode may go on. -/
def Full (c : Config) (o : Oracle) (l : List Event) : Prop :=
  (0 < timestepsOf c l ∧ reached (timestepsOf c l) c.numTimesteps = true) ∨ (0 < updatesOf o l ∧ reached (updatesOf o l) c.numUpdates = true)

/-- What the environment answers to the last execution, at this point. -/
def answer (o : Oracle) (n : Nat) (l : List Event) : Nat := o.code l n (stepsOf n l)

/-- The evaluation environment has answered, some time since it was last executed, that its episode ended. -/
def over (o : Oracle) (n : Nat) : List Event → Bool
  | [] => false
  | e :: l => (decide (lastOf n (e :: l) = some (.execute n)) && decide (0 < answer o n (e :: l))) || (decide (e.env ≠ n) && over o n l)

/-- The episode of environment `n` has ended. -/
def Ended (c : Config) (o : Oracle) (n : Nat) (l : List Event) : Prop :=
  if c.isEval n then over o n l = true else (lastOf n l).any Event.isEnd = true

/-- Why environment `n` may be told what it is told, and the agent about it, after the events `l`. -/
def Due (c : Config) (o : Oracle) (n : Nat) (e : Event) (l : List Event) : Prop :=
  match e with
  | .reset _ => lastOf n l = none ∨ Ended c o n l
  | .execute _ => lastOf n l = some (if c.isEval n then .evalAct n else .act n)
  | .act _ => c.isEval n = false ∧ (lastOf n l = some (.reset n) ∨ lastOf n l = some (.observe n 0))
  | .evalAct _ => c.isEval n = true ∧ (lastOf n l = some (.reset n) ∨ (lastOf n l = some (.execute n) ∧ answer o n l = 0))
  | .observe _ t => c.isEval n = false ∧ lastOf n l = some (.execute n) ∧
      ((t = answer o n l ∧ (t = 0 → ¬ Full c o l)) ∨ (answer o n l = 0 ∧ t = 2 ∧ Stopped c o l))

/-- Every event of environment `n` was due. -/
def AllDue (c : Config) (o : Oracle) (n : Nat) : List Event → Prop
  | [] => True
  | e :: l => (e.env = n → Due c o n e l) ∧ AllDue c o n l

instance (c : Config) (o : Oracle) (l : List Event) : Decidable (Stopped c o l) := inferInstanceAs (Decidable (_ ∨ _))
instance (c : Config) (o : Oracle) (l : List Event) : Decidable (Full c o l) := inferInstanceAs (Decidable (_ ∨ _))
instance (c : Config) (o : Oracle) (n : Nat) (l : List Event) : Decidable (Ended c o n l) := by unfold Ended; infer_instance
instance (c : Config) (o : Oracle) (n : Nat) (e : Event) (l : List Event) : Decidable (Due c o n e l) := by unfold Due; cases e <;> infer_instance

end Verif.Runner
