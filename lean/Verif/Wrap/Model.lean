/-!
# Model of the optimizer wrapper

Models `tensorforce/core/optimizers/optimizer_wrapper.py` (48-91), the signatures of the optimizers (`tensorforce/core/optimizers/`), and
the checks of their constant hyperparameters (`tensorforce/core/parameters/constant.py` 36-58).

Simplifications:
* Values are booleans, integers, floats (exact), or anything else (`spec`: a name or a specification, without its content). Specifications
  of hyperparameters are accepted here; for their checks see C29 and C123.
* The inner optimizer is created from a name or a dictionary without nested optimizers. Of its arguments only the learning rate is
  checked; whether an optimizer of TensorFlow knows further arguments is not modelled.
* Optimizers of TensorFlow Addons are left out.
-/

namespace Verif.Wrap

inductive Err where
  /-- `TensorforceError.deprecated` -/
  | deprecated
  /-- `TensorforceError.dtype` -/
  | dtype
  /-- `TensorforceError.value` -/
  | value
  /-- TypeError: an argument is missing or unknown. -/
  | arguments
  /-- There is no such optimizer. -/
  | module_
  deriving Repr, DecidableEq

inductive Value where
  | bool (b : Bool)
  | int (z : Int)
  | float (x : Rat)
  | spec (s : String)
  deriving Repr, DecidableEq

abbrev Entries := List (String × Value)

/-- The argument `optimizer`. -/
inductive Given where
  | dict (entries : Entries)
  | other (v : Value)
  deriving Repr, DecidableEq

/-- The other arguments, lines 48-54. -/
structure Arguments where
  rate : Value := .float (1 / 1000)
  clipping : Option Value := none
  steps : Value := .int 1
  fraction : Value := .float 1
  iterations : Value := .int 0
  doublecheck : Bool := false
  deprecated : Bool := false
  further : Entries := []
  deriving Repr, DecidableEq

/-- The nested dictionaries. -/
inductive Tree where
  | base (entries : Entries)
  | doublecheck (t : Tree)
  | linesearch (iterations : Value) (t : Tree)
  | subsampling (fraction : Value) (t : Tree)
  | multi (steps : Value) (t : Tree)
  | clipping (threshold : Value) (t : Tree)
  deriving Repr, DecidableEq

/-- `isinstance(x, int)`, true for booleans too, and the number. -/
def Value.int? : Value → Option Int
  | .bool b => some (if b then 1 else 0)
  | .int z => some z
  | .float _ => none
  | .spec _ => none

/-- `d[key] = value` -/
def put (key : String) (value : Value) : Entries → Entries
  | [] => [(key, value)]
  | (k, v) :: l => if k = key then (k, value) :: l else (k, v) :: put key value l

/-- `d.update(source)` -/
def update (d : Entries) : Entries → Entries
  | [] => d
  | (k, v) :: l => update (put k v d) l

/-- Lines 61-66. -/
def withRate (g : Given) (rate : Value) : Entries :=
  match g with
  | .dict e => if (e.lookup "learning_rate").isNone then put "learning_rate" rate e else e
  | .other v => [("type", v), ("learning_rate", rate)]

/-- Lines 61-68. -/
def inner (g : Given) (a : Arguments) : Entries := update (withRate g a.rate) a.further

/-- The user's object after lines 61-68, which change a dictionary itself. -/
def after (g : Given) (a : Arguments) : Given :=
  match g with
  | .dict _ => .dict (inner g a)
  | .other v => .other v

/-- Lines 70-71. -/
def addDoublecheck (a : Arguments) (t : Tree) : Tree := if a.doublecheck then .doublecheck t else t

/-- Lines 73-76. -/
def addLinesearch (a : Arguments) (t : Tree) : Tree :=
  match a.iterations.int? with
  | none => .linesearch a.iterations t
  | some z => if 0 < z then .linesearch a.iterations t else t

/-- Lines 78-81. -/
def addSubsampling (a : Arguments) (t : Tree) : Tree := if a.fraction = .float 1 then t else .subsampling a.fraction t

/-- Lines 83-84. -/
def addMulti (a : Arguments) (t : Tree) : Tree :=
  match a.steps.int? with
  | none => .multi a.steps t
  | some z => if 1 < z then .multi a.steps t else t

/-- Lines 86-89. -/
def addClipping (a : Arguments) (t : Tree) : Tree :=
  match a.clipping with
  | none => t
  | some v => .clipping v t

/-- `OptimizerWrapper.__init__`, lines 48-89. -/
def wrap (g : Given) (a : Arguments) : Except Err Tree :=
  if a.deprecated then .error .deprecated
  else .ok (addClipping a (addMulti a (addSubsampling a (addLinesearch a (addDoublecheck a (.base (inner g a)))))))

/-- Arguments of a constructor. -/
structure Signature where
  required : List String
  optional : List String
  /-- `**kwargs` -/
  others : Bool
  deriving Repr, DecidableEq

/-- The constructors: tf_optimizer.py 75-78 (names in 25-34), evolutionary.py 37, natural_gradient.py 45-48, optimizer_wrapper.py 48-54, plus.py 36,
clipping_step.py 38, update_modifier.py 32, linesearch_step.py 41-43, multi_step.py 36, subsampling_step.py 37, synchronization.py 38. -/
def signature (s : String) : Option Signature :=
  if s ∈ ["adadelta", "adagrad", "adam", "adamax", "ftrl", "nadam", "rmsprop", "sgd"] then
    some ⟨["learning_rate"], ["gradient_norm_clipping"], true⟩
  else if s = "tf_optimizer" then some ⟨["optimizer", "learning_rate"], ["gradient_norm_clipping"], true⟩
  else if s = "evolutionary" then some ⟨["learning_rate"], ["num_samples"], false⟩
  else if s = "natural_gradient" then some ⟨["learning_rate"], ["cg_max_iterations", "cg_damping", "only_positive_updates"], false⟩
  else if s = "optimizer_wrapper" then some ⟨["optimizer"], ["learning_rate"], true⟩
  else if s = "plus" then some ⟨["optimizer1", "optimizer2"], [], false⟩
  else if s = "clipping_step" then some ⟨["optimizer", "threshold"], ["mode"], false⟩
  else if s ∈ ["doublecheck_step", "global_optimizer"] then some ⟨["optimizer"], [], false⟩
  else if s = "linesearch_step" then some ⟨["optimizer", "max_iterations"], ["backtracking_factor"], false⟩
  else if s = "multi_step" then some ⟨["optimizer", "num_steps"], [], false⟩
  else if s = "subsampling_step" then some ⟨["optimizer", "fraction"], [], false⟩
  else if s = "synchronization" then some ⟨["update_weight"], ["sync_frequency"], false⟩
  else none

/-- Whether the constructor can be called with these keywords. -/
def Signature.accepts (sig : Signature) (keys : List String) : Bool :=
  sig.required.all (fun k => keys.contains k) && (sig.others || keys.all (fun k => sig.required.contains k || sig.optional.contains k))

/-- A constant float with bounds, constant.py 36-58. -/
def checkFloat (lo : Rat) (hi : Option Rat) : Value → Except Err Unit
  | .bool _ => .error .dtype
  | .int _ => .error .dtype
  | .float x =>
    if x < lo then .error .value
    else
      match hi with
      | none => .ok ()
      | some h => if h < x then .error .value else .ok ()
  | .spec _ => .ok ()

/-- A constant integer with lower bound 1. -/
def checkInt : Value → Except Err Unit
  | .bool _ => .error .dtype
  | .int z => if z < 1 then .error .value else .ok ()
  | .float _ => .error .dtype
  | .spec _ => .ok ()

/-- `andThen a b`: the second check follows if the first succeeds. -/
def andThen (a b : Except Err Unit) : Except Err Unit :=
  match a with
  | .error e => .error e
  | .ok _ => b

/-- The name of the type; without type the default is the wrapper itself (optimizers/__init__.py 38). -/
def typeName (e : Entries) : Option String :=
  match e.lookup "type" with
  | none => some "optimizer_wrapper"
  | some (.spec s) => some s
  | some _ => none

/-- The innermost optimizer. -/
def construct (e : Entries) : Except Err Unit :=
  match (typeName e).bind signature with
  | none => .error .module_
  | some sig =>
    if sig.accepts ((e.map (·.1)).filter (fun k => k != "type")) then
      match e.lookup "learning_rate" with
      | none => .ok ()
      | some v => checkFloat 0 none v
    else .error .arguments

/-- The constructors of the modifiers, which create the inner optimizer first. -/
def build : Tree → Except Err Unit
  | .base e => construct e
  | .doublecheck t => build t
  | .linesearch v t => andThen (build t) (checkInt v)
  | .subsampling v t => andThen (build t) (match v.int? with | some _ => checkInt v | none => checkFloat 0 (some 1) v)
  | .multi v t => andThen (build t) (checkInt v)
  | .clipping v t => andThen (build t) (checkFloat 0 none v)

/-- Creation of the wrapper. -/
def create (g : Given) (a : Arguments) : Except Err Tree :=
  match wrap g a with
  | .error e => .error e
  | .ok t =>
    match build t with
    | .error e => .error e
    | .ok _ => .ok t

end Verif.Wrap
