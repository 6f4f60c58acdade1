import Verif.Tune.Model
import Mathlib.Algebra.BigOperators.Group.List.Basic

/-!
# Terms for the theorems on the tuner
-/

namespace Verif.Tune

instance [DecidableEq α] : DecidableEq (Except Err α)
  | .ok a, .ok b => if h : a = b then .isTrue (h ▸ rfl) else .isFalse (fun h' => h (by cases h'; rfl))
  | .error a, .error b => if h : a = b then .isTrue (h ▸ rfl) else .isFalse (fun h' => h (by cases h'; rfl))
  | .ok _, .error _ => .isFalse nofun
  | .error _, .ok _ => .isFalse nofun

section
variable {K : Type} [Field K] [LinearOrder K]

/-- `x` is between the bounds. -/
def Between {α : Type} [LE α] (b : α × α) (x : α) : Prop := b.1 ≤ x ∧ x ≤ b.2

/-- The configuration is in the search space with the given ranges. -/
structure InSpace (b : Bounds K) (c : Config K) : Prop where
  batch : Between b.batch c.batch
  rate : Between b.rate c.rate
  multi : Between b.multi c.multi
  horizon : Between b.horizon c.horizon
  discount : Between b.discount c.discount
  clipping : Between b.clipping c.clipping
  entropy : Between b.entropy c.entropy
  known : c.baseline ≠ .unknown
  weight : c.baseline ≠ .no → ∃ w, c.weight = some w ∧ Between b.weight w
  advantage : c.baseline ≠ .no → ∃ a, c.advantage = some a

/-- What the agent takes over from the configuration. -/
structure Follows (c : Config K) (a : Agent K) : Prop where
  batch : a.batch = c.batch
  rate : a.rate = c.rate
  multi : a.multi = c.multi
  horizon : a.horizon = c.horizon
  discount : a.discount = c.discount
  importance : a.importance = true ↔ c.importance = .yes
  clipped : c.clipping ≤ 1 → a.clipping = some c.clipping
  unclipped : 1 < c.clipping → a.clipping = none
  entropy : 1 / 100000 ≤ c.entropy → a.entropy = c.entropy
  nothing : c.entropy < 1 / 100000 → a.entropy = 0
  never : a.actionValues = false
  without : c.baseline = .no → a.predict = false ∧ a.advantage = false ∧ a.network = false ∧ a.weight = none ∧ a.objective = false
  baseline : c.baseline ≠ .no → a.predict = true ∧ a.weight = c.weight ∧ a.objective = true ∧ (a.advantage = true ↔ c.advantage = some .yes)
  network : a.network = true ↔ c.baseline = .yes

/-- The agent is valid: parameters are in the ranges which are documented for agents. -/
structure Valid (a : Agent K) : Prop where
  batch : 0 < a.batch
  rate : 0 < a.rate
  multi : 0 < a.multi
  horizon : 0 < a.horizon
  discount : 0 ≤ a.discount ∧ a.discount ≤ 1
  clipping : ∀ v, a.clipping = some v → 0 < v
  weight : ∀ v, a.weight = some v → 0 < v
  entropy : 0 ≤ a.entropy
  /-- an advantage needs a baseline -/
  advantage : a.advantage = true → a.objective = true
  predict : a.predict = true → a.objective = true

/-- `m` is the mean of the numbers. -/
def IsMean (l : List K) (m : K) : Prop := l ≠ [] ∧ m * (l.length : K) = l.sum

/-- The last `n` of the numbers. -/
def IsLast (n : Nat) (l t : List K) : Prop := ∃ s, l = s ++ t ∧ t.length = min n l.length

end

end Verif.Tune
