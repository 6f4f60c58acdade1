import Verif.Gym.Level

/-!
# Specification for the creation of Gym environments and the end of episodes
-/

namespace Verif.Gym

def dashV : Name := "-v".toList

/-- A version of the given name: the name with `-v` and a part without `-v` appended. -/
def VersionOf (base n : Name) : Prop := ∃ v, n = base ++ (dashV ++ v) ∧ ¬ dashV <:+: v

/-- The step limit which is asked for: for a registered id its own one if there is no argument, and for a name without version no limit
(71-72). -/
def wantedSteps (own : Option (Option Nat)) : Steps → Option Nat
  | .unset =>
    match own with
    | some steps => steps
    | none => none
  | .off => none
  | .limit n => some n

/-- The reward threshold which is asked for: the registered one if there is no argument (47-49). -/
def wantedThreshold (own : Option Rat) : Option Rat → Option Rat
  | none => own
  | some t => some t

/-- Every registered id has a version. -/
def Versioned (reg : Registry) : Prop := ∀ x ∈ reg, ∃ base, VersionOf base x.1

/-- What is created from the registered id `src`: a version of the same name with the requested limit and threshold. The id itself is used if
it has these, otherwise a new id is registered; all other ids remain as they are. -/
def CreatedFrom (reg : Registry) (src : Name) (r : Reg) (want : Option Nat) (threshold : Option Rat) (c : Created) : Prop :=
  c.steps = want ∧ look c.id c.reg = some ⟨want, wantedThreshold r.threshold threshold⟩ ∧
    (∀ base, VersionOf base src → VersionOf base c.id) ∧ (∀ n, n ≠ c.id → look n c.reg = look n reg) ∧
    (r = ⟨want, wantedThreshold r.threshold threshold⟩ → c.id = src ∧ c.reg = reg) ∧
    (r ≠ ⟨want, wantedThreshold r.threshold threshold⟩ → look c.id reg = none)

/-- What an environment with a step limit returns for its steps: it is done if it terminates by itself or reaches the limit. -/
def limited (limit : Option Nat) : Nat → List (Bool × Rat) → List (Bool × Rat)
  | _, [] => []
  | t, (own, reward) :: rest => (own || decide (limit = some (t + 1)), reward) :: limited limit (t + 1) rest

/-- Only the last step of an episode may end it. -/
def oneEpisode (limit : Option Nat) : Nat → List (Bool × Rat) → Bool
  | _, [] => true
  | _, [_] => true
  | t, (own, _) :: rest => !own && decide (limit ≠ some (t + 1)) && oneEpisode limit (t + 1) rest

/-- Termination codes and rewards: 1 with the additional reward if the environment terminates by itself, 2 at the step limit,
0 otherwise. -/
def expected (limit : Option Nat) (bonus : Rat) : Nat → List (Bool × Rat) → List (Nat × Rat)
  | _, [] => []
  | t, (own, reward) :: rest =>
    (if own then (1, reward + bonus) else if limit = some (t + 1) then (2, reward) else (0, reward)) ::
      expected limit bonus (t + 1) rest

/-- The environment does not terminate by itself in the very step in which the limit is reached. -/
def noTie (limit : Option Nat) : Nat → List (Bool × Rat) → Bool
  | _, [] => true
  | t, (own, _) :: rest => !(own && decide (limit = some (t + 1))) && noTie limit (t + 1) rest

end Verif.Gym
