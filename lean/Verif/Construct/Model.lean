import Verif.Family.Model

/-!
# Construction of the main model: preprocessing, exploration, update, reward horizon, memory capacity

Source: `tensorforce/core/models/tensorforce.py` lines 48-138, 167-183, 204-252, 500-537 and 680-684, `core/parameters/parameter.py`,
`core/parameters/constant.py`, `core/memories/queue.py`, `core/utils/nested_dict.py`.

Simplifications.
* Floating point numbers are rationals, so `int(frequency * batch_size)` is not subject to rounding.
* Names of states and actions are paths (lists of parts, in the code joined by `/`); the name `None` of a single unnamed state or
  action is the empty path.  Keys of dictionaries are split the same way.
* Parameters are known by their bounds.  Constants are modelled; for all other specifications (dictionaries with a type, files,
  library names) the bounds they announce are given by the `World`.
* Layers, policies, optimizers and the memory contents are not built here.  Past horizons of policy and baseline are numbers.
* Python dictionaries are lists of pairs; if a key occurs twice the first entry counts.
-/

namespace Verif.Construct

open Verif.Family (Val Args find)

/-- Exceptions. -/
inductive Err where
  | value (argument : String)
  | required (argument : String)
  | invalid (argument : String)
  | dtype
  /-- `TypeError` -/
  | type
  /-- `AttributeError` -/
  | attribute
  /-- `KeyError` -/
  | key (name : String)
  | assertion
  deriving Repr, DecidableEq

abbrev Path := List String

/-! ## Parameters -/

/-- What a parameter object announces: `min_value()` and `max_value()`. -/
structure Bounds (K : Type) where
  lo : Option K
  hi : Option K
  deriving Repr, DecidableEq

/-- A parameter which was accepted: its specification and its bounds. -/
structure Param (K : Type) where
  spec : Val
  bounds : Bounds K
  deriving Repr

/-- Bounds announced by parameters which are not constants. -/
structure World where
  ints : Val → Except Err (Bounds Int)
  floats : Val → Except Err (Bounds Rat)

/-- Checks of `Parameter.__init__` (`parameter.py:46-69`). -/
def checkBounds {K : Type} [LT K] [DecidableRel (α := K) (· < ·)] (lo hi : Option K) (b : Bounds K) : Except Err Unit :=
  let ordered : Except Err Unit :=
    match b.lo, b.hi with
    | some l, some h => if h < l then .error .assertion else .ok ()
    | _, _ => .ok ()
  let lower : Except Err Unit :=
    match lo with
    | none => .ok ()
    | some x =>
      match b.lo with
      | none => .error (.value "lower bound")
      | some l => if l < x then .error (.value "lower bound") else .ok ()
  let upper : Except Err Unit :=
    match hi with
    | none => .ok ()
    | some x =>
      match b.hi with
      | none => .error (.value "upper bound")
      | some h => if x < h then .error (.value "upper bound") else .ok ()
  do
    ordered
    lower
    upper

/-- Checks of `Constant.__init__` on the value (`constant.py:47-56`). -/
def checkConstant {K : Type} [LT K] [DecidableRel (α := K) (· < ·)] (lo hi : Option K) (x : K) : Except Err Unit :=
  if (match lo with | some l => decide (x < l) | none => false) then .error (.value "value")
  else if (match hi with | some h => decide (h < x) | none => false) then .error (.value "value")
  else .ok ()

/-- `submodule(module=v, modules=parameter_modules, dtype='int', min_value=lo, max_value=hi)` (`constant.py:35-60`; without a value
the default class `Constant` lacks its argument, `module.py:456-468`). -/
def intParam (w : World) (lo hi : Option Int) (v : Val) : Except Err (Param Int) :=
  match v with
  | .int n => do
    checkConstant lo hi n
    checkBounds lo hi ⟨some n, some n⟩
    .ok ⟨v, ⟨some n, some n⟩⟩
  | .bool _ => .error .dtype
  | .float _ => .error .dtype
  | .none => .error .type
  | .str _ | .dict _ | .other _ => do
    let b ← w.ints v
    checkBounds lo hi b
    .ok ⟨v, b⟩

/-- The same for `dtype='float'`. -/
def floatParam (w : World) (lo hi : Option Rat) (v : Val) : Except Err (Param Rat) :=
  match v with
  | .float q => do
    checkConstant lo hi q
    checkBounds lo hi ⟨some q, some q⟩
    .ok ⟨v, ⟨some q, some q⟩⟩
  | .bool _ => .error .dtype
  | .int _ => .error .dtype
  | .none => .error .type
  | .str _ | .dict _ | .other _ => do
    let b ← w.floats v
    checkBounds lo hi b
    .ok ⟨v, b⟩

/-! ## State preprocessing (lines 53-87) -/

/-- What matters of a state or action specification: its type and which bounds are given. -/
structure Item where
  type : String
  hasMin : Bool
  hasMax : Bool
  deriving Repr, DecidableEq

/-- States or actions, `TensorsSpec.items()`. -/
abbrev Items := List (Path × Item)

/-- `name in spec` (`nested_dict.py:190-224`): also groups of names are contained; a path through a leaf fails. -/
def contains (items : Items) (k : Path) : Except Err Bool :=
  if items.any (fun x => !x.1.isEmpty && x.1.isPrefixOf k && x.1 != k) then .error .assertion
  else .ok (items.any (fun x => if k.isEmpty then x.1.isEmpty else k.isPrefixOf x.1))

/-- `any(name not in spec for name in keys)` -/
def anyMissing (items : Items) : List Path → Except Err Bool
  | [] => .ok false
  | k :: rest => do
    if ← contains items k then anyMissing items rest else .ok true

/-- Argument `state_preprocessing`; `L` are layer specifications, an entry of a dictionary may be `None`. -/
inductive Preprocessing (L : Type) where
  | none
  /-- The default `'linear_normalization'`. -/
  | linear
  | one (l : L)
  | dict (entries : List (Path × Option L))

/-- The layers of one state. -/
inductive Layers (L : Type) where
  | none
  /-- `['linear_normalization']` -/
  | linear
  | given (l : L)
  /-- The dictionary itself is used as the specification of a layer. -/
  | whole (entries : List (Path × Option L))

def lookup {β : Type} (k : Path) : List (Path × β) → Option β
  | [] => Option.none
  | (k', v) :: rest => if k' = k then some v else lookup k rest

/-- An entry of the dictionary. -/
def entryLayers {L : Type} : Option L → Layers L
  | Option.none => .none
  | some l => .given l

/-- Lines 67-73. -/
def layersOf {β L : Type} (f : β → Layers L) (entries : List (Path × β)) (name : Path) (spec : Item) : Layers L :=
  match lookup name entries with
  | some v => f v
  | Option.none =>
    match lookup [spec.type] entries with
    | some v => f v
    | Option.none => .none

/-- Lines 56-73: which layers every state gets.  All keys of the default are names of states, so lines 63-65 leave it as it is. -/
def preprocessing {L : Type} (states : Items) (p : Preprocessing L) : Except Err (List (Path × Layers L)) :=
  match p with
  | .linear =>
    let entries := (states.filter (fun x => x.2.type == "float" && x.2.hasMin && x.2.hasMax)).map (fun x => (x.1, ()))
    .ok (states.map (fun x => (x.1, layersOf (fun _ => Layers.linear) entries x.1 x.2)))
  | .none => .ok (states.map (fun x => (x.1, layersOf id (states.map (fun y => (y.1, Layers.none))) x.1 x.2)))
  | .one l => .ok (states.map (fun x => (x.1, layersOf id (states.map (fun y => (y.1, Layers.given l))) x.1 x.2)))
  | .dict entries => do
    if ← anyMissing states (entries.map Prod.fst) then
      .ok (states.map (fun x => (x.1, layersOf id (states.map (fun y => (y.1, Layers.whole entries))) x.1 x.2)))
    else .ok (states.map (fun x => (x.1, layersOf entryLayers entries x.1 x.2)))

/-! ## Exploration (lines 108-138) -/

/-- Argument `exploration`. -/
inductive Exploration where
  | none
  | one (v : Val)
  | dict (entries : List (Path × Val))

/-- The exploration of a model. -/
inductive Explore where
  | global (p : Param Rat)
  | perAction (ps : List (Path × Param Rat))

/-- A dictionary as specification of a parameter (`module.py:394-401`): without a type it gives the arguments of `Constant`, which
needs exactly `value` here. -/
def dictParam (w : World) (lo hi : Option Rat) (entries : List (Path × Val)) : Except Err (Param Rat) :=
  match lookup ["type"] entries with
  | some _ => floatParam w lo hi (.dict (entries.map (fun x => ("/".intercalate x.1, x.2))))
  | Option.none =>
    match entries with
    | [(["value"], v)] =>
      match v with
      | .float _ | .int _ | .bool _ => floatParam w lo hi v
      | _ => .error (.value "unexpected")
    | _ => .error .type

/-- Lines 115-120: the module of one action, `None` if there is no entry. -/
def moduleOf (entries : List (Path × Val)) (name : Path) (spec : Item) : Val :=
  match lookup name entries with
  | some v => v
  | Option.none =>
    match lookup [spec.type] entries with
    | some v => v
    | Option.none => .none

/-- Lines 114-132. -/
def exploreActions (w : World) (entries : List (Path × Val)) : Items → Except Err (List (Path × Param Rat))
  | [] => .ok []
  | (name, spec) :: rest =>
    match moduleOf entries name spec with
    | .none => exploreActions w entries rest
    | v =>
      if spec.type = "bool" ∨ spec.type = "int" then do
        let p ← floatParam w (some 0) (some 1) v
        let ps ← exploreActions w entries rest
        .ok ((name, p) :: ps)
      else do
        let p ← floatParam w (some 0) Option.none v
        let ps ← exploreActions w entries rest
        .ok ((name, p) :: ps)

/-- Lines 109-138. -/
def exploration (w : World) (actions : Items) (e : Exploration) : Except Err Explore :=
  match e with
  | .none => do
    let p ← floatParam w (some 0) Option.none (.float 0)
    .ok (.global p)
  | .one v => do
    let p ← floatParam w (some 0) Option.none v
    .ok (.global p)
  | .dict entries => do
    if ← anyMissing actions (entries.map Prod.fst) then do
      let p ← dictParam w (some 0) Option.none entries
      .ok (.global p)
    else do
      let ps ← exploreActions w entries actions
      .ok (.perAction ps)

/-! ## Update (lines 204-252, 680-684) -/

structure Update where
  unit : String
  batch : Param Int
  /-- `None` for `'never'`; then the attribute `update_start` is missing as well. -/
  schedule : Option (Param Int × Param Int)
  deriving Repr

/-- `max_value()` in an arithmetic expression. -/
def number : Option Int → Except Err Int
  | some n => .ok n
  | none => .error .type

def updateKeys : List String := ["batch_size", "frequency", "start", "unit"]

/-- Line 227. -/
def isNever : Option Val → Bool
  | some (.str s) => s = "never"
  | _ => false

/-- Lines 230-240: the frequency in case it is not `'never'`. -/
def frequencyOf (frequency : Option Val) (batch : Val) : Except Err Val :=
  match frequency with
  | none => .ok batch
  | some .none => .ok batch
  | some (.float q) =>
    if q ≤ 0 ∨ 1 < q then .error (.value "update[frequency]")
    else
      match batch with
      | .int n => .ok (.int (max 1 (q * (n : Rat)).floor))
      | _ => .error .type
  | some v => .ok v

/-- `get(k)`, with a default for `None`. -/
def orDefault (d : Val) : Option Val → Val
  | none => d
  | some .none => d
  | some v => v

/-- Lines 204-252. -/
def makeUpdate (w : World) (update : Args) : Except Err Update :=
  if !(update.all (fun x => updateKeys.contains x.1)) then .error (.value "update")
  else
    match find "unit" update with
    | none => .error (.required "update[unit]")
    | some unit =>
      match unit with
      | .str u =>
        if !(u = "timesteps" ∨ u = "episodes") then .error (.value "update[unit]")
        else
          match find "batch_size" update with
          | none => .error (.required "update[batch_size]")
          | some b => do
            let batch ← intParam w (some 1) none b
            if isNever (find "frequency" update) then .ok ⟨u, batch, none⟩
            else do
              let f ← frequencyOf (find "frequency" update) b
              let h ← number batch.bounds.hi
              let frequency ← intParam w (some 1) (some (max 2 h)) f
              let start ← intParam w (some 0) none (orDefault (.int 0) (find "start" update))
              .ok ⟨u, batch, some (frequency, start)⟩
      | _ => .error (.value "update[unit]")

/-- Lines 680-684: the initial value of `last_update`. -/
def initialLastUpdate (u : Update) : Except Err Int :=
  match u.schedule with
  | none => .error .attribute
  | some (f, _) => do
    let h ← number f.bounds.hi
    .ok (-h)

/-! ## Reward horizon (lines 167-183) -/

inductive Horizon where
  | episode
  | steps (p : Param Int)
  deriving Repr

def isStr (v : Val) (s : String) : Bool := match v with | .str t => t = s | _ => false

/-- Lines 168-183; the horizon is at most `max_episode_timesteps`. -/
def makeHorizon (w : World) (max : Option Int) (h : Val) : Except Err Horizon :=
  if isStr h "episode" then .ok .episode
  else do
    let p ← intParam w (some 1) max h
    .ok (.steps p)

/-! ## Memory capacity (lines 500-537, `queue.py:46-59`) -/

/-- `config.buffer_observe`. -/
inductive Buffer where
  | episode
  | steps (n : Int)
  deriving Repr, DecidableEq

/-- Lines 506-532. -/
def minCapacity (unit : String) (batch : Bounds Int) (horizon : Horizon) (max : Option Int) (past : Int) (buffer : Buffer) :
    Except Err (Option Int) := do
  let first ←
    if unit = "timesteps" then do
      let b ← number batch.hi
      let h ←
        match horizon with
        | .episode => number max
        | .steps p => number p.bounds.hi
      let c := b + 1 + past + h
      match max with
      | some m => (.ok (some (Max.max c m)) : Except Err (Option Int))
      | none => .ok (some c)
    else if unit = "episodes" then
      match max with
      | none => .ok none
      | some m => do
        let b ← number batch.hi
        .ok (some ((b + 1) * m))
    else .error .assertion
  match buffer with
  | .episode =>
    match max with
    | some m =>
      match first with
      | some c => .ok (some (Max.max c (2 * m)))
      | none => .error .type
    | none => .ok first
  | .steps n =>
    match first with
    | none => .ok (some (2 * n))
    | some c => .ok (some (Max.max c (2 * n)))

/-- The capacity of the memory (`queue.py:46-59`), `capacity` is the given one. -/
def capacityOf (capacity min : Option Int) : Except Err Int :=
  match capacity with
  | none =>
    match min with
    | none => .error (.required "capacity")
    | some m => .ok m
  | some c =>
    match min with
    | none => .error .type
    | some m => if c < m then .error (.value "capacity") else .ok c

/-- Lines 506-537. -/
def memoryCapacity (unit : String) (batch : Bounds Int) (horizon : Horizon) (max : Option Int) (past : Int) (buffer : Buffer)
    (capacity : Option Int) : Except Err Int := do
  let m ← minCapacity unit batch horizon max past buffer
  capacityOf capacity m

end Verif.Construct
