/-!
# Model of summaries and tracking

Models `register_summary`, `register_tracking`, `summary`, `track` and `tracked_tensors` of `Module` (`tensorforce/core/module.py` 651-788), the arguments
`summarizer` and `tracking` (`tensorforce/core/models/model.py` 162-198), the directories of summaries (model.py 249-273), and which names
`TensorforceModel` registers and uses (`tensorforce/core/models/tensorforce.py` 696-762 and the calls cited below).

Simplifications: types of arguments are as they should be. A summary of one name gets a list with one value. What is written is a list of entries;
TensorFlow puts the scope of the module before the names, so that one module is considered at a time. Tensors are values of any type.
-/

namespace Verif.Summary

inductive SError where
  | exists_        -- `TensorforceError.value` "already exists"
  | notRegistered  -- `TensorforceError.value` "is not registered"
  | unit           -- `TensorforceError.value` for `step`
  | index          -- `IndexError`
  | os             -- `OSError`
deriving DecidableEq, Repr

/-! ### Labels -/

/-- `summaries` or `tracking` of the model: `'all'` or a set. -/
inductive Labels where
  | all
  | only (labels : List String)
deriving DecidableEq, Repr

/-- `self.root.summaries == 'all' or label in self.root.summaries`. -/
def Labels.has : Labels → String → Bool
  | .all, _ => true
  | .only ls, l => ls.contains l

/-- `summarizer[summaries]`, or `tracking`. -/
inductive LabelArg where
  | absent
  | all
  | given (labels : List String)
deriving DecidableEq, Repr

/-- model.py 162-190; `none` is no summarizer. -/
def summariesOf : Option LabelArg → Labels
  | none => .only []
  | some .absent => .all
  | some .all => .all
  | some (.given ls) => .only ls

/-- model.py 192-198. -/
def trackingOf : LabelArg → Labels
  | .absent => .only []
  | .all => .all
  | .given ls => .only ls

/-! ### Modules -/

/-- The name of a summary, or a tuple of names. -/
structure Name where
  head : String
  rest : List String
deriving DecidableEq, Repr

/-- `summary_steps` and `tracking_variables`. -/
structure Module (ν : Type) where
  steps : List (String × Int)
  tracked : List (String × ν)

variable {ν : Type}

/-- `l[name] = v` for a name which is there. -/
def assign {γ : Type} (name : String) (v : γ) : List (String × γ) → List (String × γ)
  | [] => []
  | (n, w) :: l => if n = name then (n, v) :: l else (n, w) :: assign name v l

/-- module.py 651-673. -/
def registerSummary (enabled : Labels) (label : String) (name : Name) (m : Module ν) : Except SError (Module ν) :=
  if (m.steps.lookup name.head).isSome then .error .exists_
  else if enabled.has label then .ok { m with steps := m.steps ++ [(name.head, -1)] }
  else .ok m

/-- module.py 675-700. -/
def registerTracking (enabled : Labels) (label name : String) (zeros : ν) (m : Module ν) : Except SError (Module ν) :=
  if (m.tracked.lookup name).isSome then .error .exists_
  else if enabled.has label then .ok { m with tracked := m.tracked ++ [(name, zeros)] }
  else .ok m

/-- The counters of the model. -/
structure Counters where
  timesteps : Int
  episodes : Int
  updates : Int

/-- `units`, model.py 293-295. -/
def Counters.unit (c : Counters) (step : String) : Option Int :=
  if step = "timesteps" then some c.timesteps
  else if step = "episodes" then some c.episodes
  else if step = "updates" then some c.updates
  else none

/-- What `tf.summary.scalar` writes. -/
structure Entry (ν : Type) where
  tag : String
  step : Int
  value : ν
deriving DecidableEq, Repr

/-- module.py 729-742. -/
def write (name : Name) (unit : Int) (values : List ν) : List (Entry ν) :=
  ((name.head :: name.rest).zip values).map fun p => ⟨p.1, unit, p.2⟩

/-- module.py 702-749: the module afterwards and what is written. -/
def summary (enabled : Labels) (counters : Counters) (label : String) (name : Name) (values : List ν) (step : String) (m : Module ν) :
    Except SError (Module ν × List (Entry ν)) :=
  match counters.unit step with
  | none => .error .unit
  | some unit =>
    if enabled.has label then
      match m.steps.lookup name.head with
      | none => .error .notRegistered
      | some last => if unit > last then .ok ({ m with steps := assign name.head unit m.steps }, write name unit values) else .ok (m, [])
    else .ok (m, [])

/-- module.py 751-776. -/
def track (enabled : Labels) (label name : String) (value : ν) (m : Module ν) : Except SError (Module ν) :=
  if enabled.has label then
    match m.tracked.lookup name with
    | none => .error .notRegistered
    | some _ => .ok { m with tracked := assign name value m.tracked }
  else .ok m

/-- `d[key] = v`. -/
def insert (key : String) (v : ν) (l : List (String × ν)) : List (String × ν) :=
  if (l.lookup key).isSome then assign key v l else l ++ [(key, v)]

/-- `tracked_tensors` with the full names of the modules, module.py 778-788. -/
def trackedTensors (mods : List (String × Module ν)) : List (String × ν) :=
  (mods.flatMap fun p => p.2.tracked.map fun q => (p.1 ++ "/" ++ q.1, q.2)).foldl (fun d p => insert p.1 p.2 d) []

/-! ### The names of `TensorforceModel` -/

/-- What decides about the names. -/
structure Config where
  baselineOptimizer : Bool
  /-- `baseline_loss_weight` is given and not constantly zero. -/
  baselineInLoss : Bool
  separateBaseline : Bool
  rewardProcessing : Bool
  returnProcessing : Bool
  estimateAdvantage : Bool
  advantageProcessing : Bool
  advantageInLoss : Bool
  /-- `gae_decay` is not constantly zero. -/
  gae : Bool
  /-- The policy is a `StochasticPolicy`. -/
  stochastic : Bool
  actions : List String

def when {γ : Type} (b : Bool) (l : List γ) : List γ := if b then l else []

/-- tensorforce.py 697, 701, 705, 708-718. -/
def Config.registeredSummaries (c : Config) : List (String × String) :=
  [("loss", "losses/policy-objective-loss"), ("loss", "losses/policy-regularization-loss"), ("loss", "losses/policy-loss")] ++
  when (c.baselineOptimizer || c.baselineInLoss)
    ([("loss", "losses/baseline-loss")] ++
      when c.separateBaseline [("loss", "losses/baseline-objective-loss"), ("loss", "losses/baseline-regularization-loss")])

/-- tensorforce.py 698-762. -/
def Config.registeredTracking (c : Config) : List (String × String) :=
  [("loss", "policy-objective-loss"), ("loss", "policy-regularization-loss"), ("loss", "policy-loss")] ++
  when (c.baselineOptimizer || c.baselineInLoss)
    ([("loss", "baseline-loss")] ++ when c.separateBaseline [("loss", "baseline-objective-loss"), ("loss", "baseline-regularization-loss")]) ++
  when c.rewardProcessing [("reward", "preprocessed-reward"), ("reward", "preprocessed-episode-return")] ++
  [("reward", "update-return")] ++
  when c.returnProcessing [("reward", "update-processed-return")] ++
  when c.estimateAdvantage ([("reward", "update-advantage")] ++ when c.advantageProcessing [("reward", "update-processed-advantage")]) ++
  when c.gae [("reward", "update-gae")] ++
  [("entropy", "entropy"), ("kl-divergence", "kl-divergence")] ++
  when (c.actions.length > 1) (c.actions.flatMap fun a => [("entropy", "entropies/" ++ a), ("kl-divergence", "kl-divergences/" ++ a)])

/-- The baseline loss is computed (tensorforce.py 2280, 2543, 2862-2883). -/
def Config.baselineLoss (c : Config) : Bool := c.baselineOptimizer || c.baselineInLoss

/-- The calls of `summary` in tensorforce.py: 2841, 2850, 2890 (`loss`), 2937-2959 (`baseline_loss`), 2460, 2476 (loss with advantage). -/
def Config.usedSummaries (c : Config) : List (String × String) :=
  [("loss", "losses/policy-objective-loss"), ("loss", "losses/policy-regularization-loss"), ("loss", "losses/policy-loss")] ++
  when c.baselineLoss
    (when c.separateBaseline [("loss", "losses/baseline-objective-loss"), ("loss", "losses/baseline-regularization-loss")] ++
      [("loss", "losses/baseline-loss")]) ++
  when (c.estimateAdvantage && c.advantageInLoss)
    ([("reward", "update-advantage")] ++ when c.advantageProcessing [("reward", "update-processed-advantage")])

/-- The calls of `track` in tensorforce.py: 2844, 2855, 2893, 2943-2960; 1517, 1568; 2242; 2265; 2343-2371 and 2463-2482; 2408; 2603-2660. -/
def Config.usedTracking (c : Config) : List (String × String) :=
  [("loss", "policy-objective-loss"), ("loss", "policy-regularization-loss"), ("loss", "policy-loss")] ++
  when c.baselineLoss
    (when c.separateBaseline [("loss", "baseline-objective-loss"), ("loss", "baseline-regularization-loss")] ++ [("loss", "baseline-loss")]) ++
  when c.rewardProcessing [("reward", "preprocessed-episode-return"), ("reward", "preprocessed-reward")] ++
  [("reward", "update-return")] ++
  when c.returnProcessing [("reward", "update-processed-return")] ++
  when c.estimateAdvantage ([("reward", "update-advantage")] ++ when c.advantageProcessing [("reward", "update-processed-advantage")]) ++
  when (c.estimateAdvantage && !c.advantageInLoss && c.gae) [("reward", "update-gae")] ++
  when c.stochastic
    (when (c.actions.length > 1) (c.actions.map fun a => ("entropy", "entropies/" ++ a)) ++ [("entropy", "entropy")] ++
      when (c.actions.length > 1) (c.actions.map fun a => ("kl-divergence", "kl-divergences/" ++ a)) ++ [("kl-divergence", "kl-divergence")])

/-- All registrations of summaries. -/
def registerSummaries (enabled : Labels) : List (String × String) → Module ν → Except SError (Module ν)
  | [], m => .ok m
  | p :: l, m =>
    match registerSummary enabled p.1 ⟨p.2, []⟩ m with
    | .error e => .error e
    | .ok m => registerSummaries enabled l m

/-- All registrations of tracked tensors. -/
def registerTrackings (enabled : Labels) (zeros : ν) : List (String × String) → Module ν → Except SError (Module ν)
  | [], m => .ok m
  | p :: l, m =>
    match registerTracking enabled p.1 p.2 zeros m with
    | .error e => .error e
    | .ok m => registerTrackings enabled zeros l m

/-! ### Directories -/

/-- What is in the directory of the summarizer, with the number of files within. -/
structure Item where
  name : String
  isDir : Bool
  files : Nat
deriving DecidableEq, Repr

/-- `d.startswith('summary-')`. -/
def generic (name : String) : Bool := "summary-".toList.isPrefixOf name.toList

def insertName (n : String) : List String → List String
  | [] => [n]
  | m :: l => if n ≤ m then n :: m :: l else m :: insertName n l

/-- `sorted`. -/
def sortNames : List String → List String
  | [] => []
  | n :: l => insertName n (sortNames l)

/-- `directories`, model.py 251-258. -/
def directories (items : List Item) : List String := sortNames ((items.filter fun i => i.isDir && generic i.name).map Item.name)

/-- `directories[:k]`. -/
def sliceTo (l : List String) (k : Int) : List String := if 0 ≤ k then l.take k.toNat else l.take (l.length - (-k).toNat)

/-- `os.remove` of the first file and `os.rmdir` for a directory, model.py 269-271. -/
def removeDir (items : List Item) (name : String) : List Item × Option SError :=
  match items.find? (·.name = name) with
  | none => (items, some .os)
  | some i =>
    if i.files = 0 then (items, some .index)
    else if i.files = 1 then (items.filter (·.name ≠ name), none)
    else (items.map fun j => if j.name = name then { j with files := j.files - 1 } else j, some .os)

def removeDirs : List String → List Item → List Item × Option SError
  | [], items => (items, none)
  | n :: ns, items =>
    match removeDir items n with
    | (items, some e) => (items, some e)
    | (items, none) => removeDirs ns items

/-- model.py 260-271: what is left when the writer is created. -/
def rotate (filename : Option String) (maxSummaries : Option Int) (items : List Item) : List Item × Option SError :=
  match filename with
  | some _ => (items, none)
  | none =>
    let max := maxSummaries.getD 7
    let ds := directories items
    if (ds.length : Int) > max - 1 then removeDirs (sliceTo ds (ds.length - max + 1)) items
    else (items, none)

/-- A number with `w` digits. -/
def pad : Nat → Nat → List Char
  | 0, _ => []
  | w + 1, n => pad w (n / 10) ++ [Char.ofNat (48 + n % 10)]

structure Time where
  year : Nat
  month : Nat
  day : Nat
  hour : Nat
  minute : Nat
  second : Nat

/-- `time.strftime('summary-%Y%m%d-%H%M%S')`. -/
def Time.format (t : Time) : String :=
  String.ofList ("summary-".toList ++ (pad 4 t.year ++ (pad 2 t.month ++ (pad 2 t.day ++ ('-' :: (pad 2 t.hour ++ (pad 2 t.minute ++ pad 2 t.second)))))))

/-- model.py 260-273: the directory of the new summary. -/
def logdir (filename : Option String) (time : Time) : String := filename.getD time.format

end Verif.Summary
