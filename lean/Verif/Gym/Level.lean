import Verif.Gym.Model

/-!
# Model of the creation of Gym environments and of the end of episodes

Models `tensorforce/environments/openai_gym.py`: `create_level` (63-137) and the treatment of the end of an episode in `execute`
(246-256).

Simplifications:
* The registry of Gym is a list of the registered ids, each with `max_episode_steps` and `reward_threshold`; entry point and arguments
  are copied unchanged and left out.
* `max_episode_steps=0` (equal to `False` in Python) is left out: a number is positive.
* `gym.register` accepts every new id; `gym.make` gives an environment which ends an episode after `max_episode_steps` steps.
-/

namespace Verif.Gym

/-- An entry of the registry. -/
structure Reg where
  steps : Option Nat
  threshold : Option Rat
  deriving DecidableEq, Repr

abbrev Registry := List (Name × Reg)

/-- The argument `max_episode_steps`: `None`, `False` or a number. -/
inductive Steps where
  | unset
  | off
  | limit (n : Nat)
  deriving DecidableEq, Repr

/-- The rest of a name which starts with `-v`; the first character is given separately. -/
def atVersion (c : Char) : Name → Option (Name × Name)
  | [] => none
  | d :: rest => if c = '-' ∧ d = 'v' then some ([], rest) else none

/-- The parts of a name before and after the last `-v` (`name.rindex('-v')`: 79, 119-121). -/
def rsplit : Name → Option (Name × Name)
  | [] => none
  | c :: cs =>
    match rsplit cs with
    | some (b, a) => some (c :: b, a)
    | none => atVersion c cs

/-- `max_episode_steps == registered.max_episode_steps`; `False` and `None` are different. -/
def Steps.same : Steps → Option Nat → Bool
  | .limit n, some m => n == m
  | .unset, none => true
  | _, _ => false

/-- `if level is None: level = name` (80-81) -/
def firstOf (name : Name) : Option Name → Name
  | none => name
  | some found => found

/-- The loop over the registered names (77-91). `found` is the first version found so far. -/
def search (reg : Registry) (steps : Steps) (base : Name) : List Name → Option Name → Except Err (Option Name)
  | [], found => .ok found
  | name :: rest, found =>
    match rsplit name with
    | none => .error .value
    | some (b, _) =>
      if base = b then
        match look name reg with
        | none => .error .key
        | some r =>
          if steps = .off ∧ r.steps.isSome then search reg steps base rest (some (firstOf name found))
          else if !steps.same r.steps then search reg steps base rest (some (firstOf name found))
          else .ok (some name)
      else search reg steps base rest found

def versionZero : Name := "-v0".toList

/-- The registered name for the argument `level`, and the argument `max_episode_steps` from there on (69-92). -/
def findLevel (reg : Registry) (level : Name) (steps : Steps) : Except Err (Name × Steps) :=
  if (look level reg).isSome then .ok (level, steps)
  else
    let steps' : Steps := if steps = .unset then .off else steps
    let names := reg.map (·.1)
    let names' := if (look (level ++ versionZero) reg).isSome then (level ++ versionZero) :: names else names
    match search reg steps' level names' none with
    | .error e => .error e
    | .ok none => .error .value
    | .ok (some name) => .ok (name, steps')

/-- The first version after `version` whose name is not registered (124-128). -/
def freshVersion (reg : Registry) (base : Name) : Nat → Nat → Except Err Name
  | 0, _ => .error .fuel
  | fuel + 1, version =>
    if (look (base ++ digits version) reg).isSome then freshVersion reg base fuel (version + 1)
    else .ok (base ++ digits version)

/-- The name under which a modified specification is registered (119-128). -/
def freshName (reg : Registry) (level : Name) : Except Err Name :=
  match rsplit level with
  | none => freshVersion reg level (reg.length + 1) 0
  | some (b, a) =>
    match parseNat a with
    | some v => freshVersion reg (b ++ "-v".toList) (reg.length + 1) (v + 1)
    | none => freshVersion reg level (reg.length + 1) 0

/-- What `create_level` gives: the registered id which is created, and its `max_episode_steps`. -/
structure Created where
  id : Name
  steps : Option Nat
  reg : Registry
  deriving DecidableEq, Repr

/-- `max_episode_steps` in the end (95-98, 110-111). -/
def finalSteps (registered : Option Nat) : Steps → Option Nat
  | .unset => registered
  | .off => none
  | .limit n => some n

/-- `create_level` (63-137). -/
def createLevel (reg : Registry) (level : Name) (steps : Steps) (threshold : Option Rat) : Except Err Created :=
  match findLevel reg level steps with
  | .error e => .error e
  | .ok (name, steps') =>
    match look name reg with
    | none => .error .assertion
    | some r =>
      let final := finalSteps r.steps steps'
      let register₁ : Bool := steps' ≠ .unset && !steps'.same r.steps && !(steps' = .off && r.steps = none)
      let register₂ : Bool := threshold ≠ none && threshold ≠ r.threshold
      let threshold' := if threshold = none then r.threshold else threshold
      if register₁ || register₂ then
        match freshName reg name with
        | .error e => .error e
        | .ok new => .ok { id := new, steps := final, reg := put new ⟨final, threshold'⟩ reg }
      else .ok { id := name, steps := final, reg := reg }

/-! ## The end of episodes -/

/-- `execute` (246-256): `terminal` and `reward` for what the environment returns at the given timestep. -/
def classify (known : Option Nat) (bonus : Rat) (timestep : Nat) (done : Bool) (reward : Rat) : Except Err (Nat × Rat) :=
  if known = some timestep then
    if done then .ok (2, reward) else .error .assertion
  else if done then
    match known with
    | none => .ok (1, reward + bonus)
    | some n => if timestep < n then .ok (1, reward + bonus) else .error .assertion
  else .ok (0, reward)

/-- The steps of an episode from the given timestep on: for each step whether the environment says it is done, and the reward. -/
def episode (known : Option Nat) (bonus : Rat) : Nat → List (Bool × Rat) → Except Err (List (Nat × Rat))
  | _, [] => .ok []
  | t, (done, reward) :: rest =>
    match classify known bonus (t + 1) done reward with
    | .error e => .error e
    | .ok x =>
      match episode known bonus (t + 1) rest with
      | .error e => .error e
      | .ok xs => .ok (x :: xs)

end Verif.Gym
