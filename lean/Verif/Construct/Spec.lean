import Verif.Construct.Model

/-!
# Specification of preprocessing, exploration, update configuration and memory capacity

Documentation: `tensorforce/agents/tensorforce.py` lines 77-97 (memory, update), 167-178 (state preprocessing, exploration).
Nothing here follows the control flow of the code.
-/

namespace Verif.Construct

open Verif.Family (Val Args find)

/-! ## Parameters -/

/-- The bounds which an integer parameter announces, if the specification is one. -/
def intBounds (w : World) : Val → Option (Bounds Int)
  | .int n => some ⟨some n, some n⟩
  | .none | .bool _ | .float _ => none
  | v => (w.ints v).toOption

/-- The bounds which a float parameter announces, if the specification is one. -/
def floatBounds (w : World) : Val → Option (Bounds Rat)
  | .float q => some ⟨some q, some q⟩
  | .none | .bool _ | .int _ => none
  | v => (w.floats v).toOption

/-- Announced bounds are consistent and lie within the required ones. -/
def Within {K : Type} [LE K] (lo hi : Option K) (b : Bounds K) : Prop :=
  (∀ l h, b.lo = some l → b.hi = some h → l ≤ h) ∧
  (∀ x, lo = some x → ∃ l, b.lo = some l ∧ x ≤ l) ∧
  (∀ x, hi = some x → ∃ h, b.hi = some h ∧ h ≤ x)

/-- The specification `v` stands for an integer parameter `p` with the required bounds. -/
def IsInt (w : World) (lo hi : Option Int) (v : Val) (p : Param Int) : Prop :=
  p.spec = v ∧ intBounds w v = some p.bounds ∧ Within lo hi p.bounds

/-- The specification `v` stands for a float parameter `p` with the required bounds. -/
def IsFloat (w : World) (lo hi : Option Rat) (v : Val) (p : Param Rat) : Prop :=
  p.spec = v ∧ floatBounds w v = some p.bounds ∧ Within lo hi p.bounds

/-! ## States and actions -/

/-- Names which are reserved (`nested_dict.py:20-22`). -/
def reserved : List String := ["bool", "int", "float", "type", "shape", "min_value", "max_value", "num_values"]

/-- Well-formed states or actions: either one without name, or different names without reserved parts, none of which is a group
of others; types are `bool`, `int` and `float`. -/
structure WellFormed (items : Items) : Prop where
  types : ∀ x ∈ items, x.2.type = "bool" ∨ x.2.type = "int" ∨ x.2.type = "float"
  free : ∀ x ∈ items, ∀ s ∈ x.1, s ∉ reserved
  distinct : items.Pairwise (fun x y => x.1 ≠ y.1)
  leaves : ∀ x ∈ items, ∀ y ∈ items, x.1 <+: y.1 → x.1 = y.1

/-- Entry for a name, or else for a type. -/
def entryFor {β : Type} (entries : List (Path × β)) (name : Path) (type : String) : Option β :=
  match entries.find? (fun e => e.1 == name) with
  | some e => some e.2
  | none => (entries.find? (fun e => e.1 == [type])).map Prod.snd

/-- The layers which the documentation promises for a state. -/
def wantedLayers {L : Type} (p : Preprocessing L) (name : Path) (spec : Item) : Layers L :=
  match p with
  | .none => .none
  | .linear => if spec.type = "float" ∧ spec.hasMin = true ∧ spec.hasMax = true then .linear else .none
  | .one l => .given l
  | .dict entries =>
    match entryFor entries name spec.type with
    | some (some l) => .given l
    | _ => .none

/-- All keys are names of single states or actions. -/
def KeysAreNames {β : Type} (items : Items) (entries : List (Path × β)) : Prop :=
  ∀ e ∈ entries, ∃ x ∈ items, x.1 = e.1

/-- The largest value which exploration may have: probabilities of `bool` and `int` actions are at most one. -/
def explorationLimit (spec : Item) : Option Rat := if spec.type = "float" then none else some 1

/-- The actions for which exploration is wanted, with their parameter. -/
def wantedExploration (entries : List (Path × Val)) (actions : Items) : List (Path × Item × Val) :=
  actions.filterMap (fun x =>
    match entryFor entries x.1 x.2.type with
    | some .none => none
    | some v => some (x.1, x.2, v)
    | none => none)

/-- The parameters are the wanted ones, in order, and each is not negative and at most its limit. -/
inductive Explores (w : World) : List (Path × Item × Val) → List (Path × Param Rat) → Prop where
  | nil : Explores w [] []
  | cons (name : Path) (spec : Item) (v : Val) (p : Param Rat) (ts : List (Path × Item × Val)) (ps : List (Path × Param Rat)) :
      IsFloat w (some 0) (explorationLimit spec) v p → Explores w ts ps → Explores w ((name, spec, v) :: ts) ((name, p) :: ps)

/-! ## Update -/

/-- The frequency which a configuration asks for, relative to the batch size if it is a float. -/
inductive Frequency (batch : Val) : Option Val → Val → Prop where
  | absent : Frequency batch none batch
  | none : Frequency batch (some .none) batch
  | relative (q : Rat) (n k : Int) : 0 < q → q ≤ 1 → batch = .int n → 1 ≤ k →
      (k = 1 ∨ (k : Rat) ≤ q * n) → q * n < ((k + 1 : Int) : Rat) → Frequency batch (some (.float q)) (.int k)
  | given (v : Val) : (∀ q, v ≠ .float q) → v ≠ .none → v ≠ .str "never" → Frequency batch (some v) v

/-- The configuration `u` stands for the update schedule `r`. -/
structure Stands (w : World) (u : Args) (r : Update) : Prop where
  keys : ∀ x ∈ u, x.1 = "unit" ∨ x.1 = "batch_size" ∨ x.1 = "frequency" ∨ x.1 = "start"
  unit : find "unit" u = some (.str r.unit)
  units : r.unit = "timesteps" ∨ r.unit = "episodes"
  batch : ∃ b, find "batch_size" u = some b ∧ IsInt w (some 1) none b r.batch
  /-- `'never'` -/
  never : r.schedule = none ↔ find "frequency" u = some (.str "never")
  /-- The frequency is positive and at most the batch size (or two), the start is not negative. -/
  schedule : ∀ f s, r.schedule = some (f, s) → ∃ v h, Frequency r.batch.spec (find "frequency" u) v ∧
    r.batch.bounds.hi = some h ∧ IsInt w (some 1) (some (max 2 h)) v f ∧
    ∃ v', IsInt w (some 0) none v' s ∧
      (find "start" u = some v' ∧ v' ≠ .none ∨ (find "start" u = none ∨ find "start" u = some .none) ∧ v' = .int 0)

/-- The documented values of `frequency` other than `"never"`. -/
inductive DocumentedFrequency (w : World) : Option Val → Prop where
  | absent : DocumentedFrequency w none
  | none : DocumentedFrequency w (some .none)
  | relative (q : Rat) : 0 < q → q ≤ 1 → DocumentedFrequency w (some (.float q))
  | parameter (v : Val) (p : Param Int) : IsInt w (some 1) none v p → v ≠ .str "never" → DocumentedFrequency w (some v)

/-- The documented update configurations: a unit, a positive batch size, a frequency, and a start of at least the batch size. -/
structure Documented (w : World) (u : Args) : Prop where
  keys : ∀ x ∈ u, x.1 = "unit" ∨ x.1 = "batch_size" ∨ x.1 = "frequency" ∨ x.1 = "start"
  unit : find "unit" u = some (.str "timesteps") ∨ find "unit" u = some (.str "episodes")
  batch : ∃ b p, find "batch_size" u = some b ∧ IsInt w (some 1) none b p
  frequency : find "frequency" u = some (.str "never") ∨ DocumentedFrequency w (find "frequency" u)
  start : find "start" u = none ∨ find "start" u = some .none ∨
    ∃ v b p q, find "start" u = some v ∧ find "batch_size" u = some b ∧ IsInt w (some 1) none b p ∧ IsInt w p.bounds.hi none v q

/-! ## Reward horizon -/

/-- The specification `v` stands for the horizon `r` of an agent with episodes of at most `max` timesteps. -/
def StandsHorizon (w : World) (max : Option Int) (v : Val) : Horizon → Prop
  | .episode => v = .str "episode"
  | .steps p => v ≠ .str "episode" ∧ IsInt w (some 1) max v p

/-- The documented horizons: `"episode"` or a parameter of at least one. -/
def DocumentedHorizon (w : World) (v : Val) : Prop := v = .str "episode" ∨ ∃ p, IsInt w (some 1) none v p

/-! ## Memory -/

/-- The largest horizon of returns in timesteps, if there is one. -/
def horizonMax (horizon : Horizon) (max : Option Int) : Option Int :=
  match horizon with
  | .episode => max
  | .steps p => p.bounds.hi

/-- What buffered observations need: two times the buffer. -/
def bufferNeeds (max : Option Int) : Buffer → List Int
  | .episode => (max.map (2 * ·)).toList
  | .steps n => [2 * n]

/-- What a memory needs for batches of at most `b` timesteps, each with `past` previous and `h` following ones, and one more
timestep; and for whole episodes. -/
def timestepNeeds (b past h : Int) (max : Option Int) (buffer : Buffer) : List Int :=
  [b + 1 + past + h] ++ max.toList ++ bufferNeeds max buffer

/-- What a memory needs for `b` episodes and the running one. -/
def episodeNeeds (b : Int) (max : Option Int) (buffer : Buffer) : List Int :=
  (max.map ((b + 1) * ·)).toList ++ bufferNeeds max buffer

/-- The capacity is as given, or else the smallest one which meets the needs. -/
def Chosen (needs : List Int) (given : Option Int) (c : Int) : Prop :=
  (∀ x ∈ needs, x ≤ c) ∧ (∀ g, given = some g → c = g) ∧ (given = none → c ∈ needs)

end Verif.Construct
