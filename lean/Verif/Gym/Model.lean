/-!
# Model of the adapter for OpenAI Gym environments

Models `tensorforce/environments/openai_gym.py`: the specifications of states and actions derived from the spaces of an environment
(`specs_from_gym_space`, 267-375), the conversion of observations (`flatten_state`, 377-448) and of actions (`unflatten_action`,
450-498), and the clipping and dropping of observation values (`__init__`, 180-202, and `reset`, 229-236).

Simplifications:
* Arrays are their shape and their elements in row-major order; elements of every data type are rational numbers, infinite or not a
  number. Rounding to 32-bit floats is left out.
* Python dictionaries are lists of names and values in the order of insertion.
* A nested dictionary of specifications with the name `type` is taken for the specification of one component (354, 367); the model
  stops there with an error, while the code carries on with a malformed specification.
* In a nested call of `flatten_state` the specification is that of one component (391, 420), a dictionary with the entries `type`,
  `shape` and so on; observations with components named like these entries are left out (no name is found there).
* The dead code of 312-343 (`spec is None`) is left out; so no name starts with `gymbox` unless the environment uses such a name.
* `drop_states_indices` are natural numbers.
-/

namespace Verif.Gym

/-- Names are lists of characters. -/
abbrev Name := List Char

/-- `str(n)`. -/
def digits (n : Nat) : Name := Nat.toDigits 10 n

/-- A number of a NumPy array. -/
inductive Num where
  | fin (r : Rat)
  | posInf
  | negInf
  | nan
  deriving DecidableEq, Repr

/-- `a <= b`; false if one of them is not a number. -/
def Num.le : Num → Num → Bool
  | .nan, _ => false
  | _, .nan => false
  | .negInf, _ => true
  | _, .posInf => true
  | .fin a, .fin b => decide (a ≤ b)
  | _, _ => false

/-- `a < b`; false if one of them is not a number. -/
def Num.lt : Num → Num → Bool
  | .nan, _ => false
  | _, .nan => false
  | a, b => !b.le a

def Num.isFin : Num → Bool
  | .fin _ => true
  | _ => false

/-- The bounds beyond which a box counts as infinite (297 and 316, for example). -/
def lowLimit : Num := .fin (-1000000)
def highLimit : Num := .fin 1000000

/-- A NumPy array (or a Python number: shape `()`). -/
structure Arr where
  shape : List Nat
  elems : List Num
  deriving DecidableEq, Repr

/-- Number of elements of an array of the given shape. -/
def size : List Nat → Nat
  | [] => 1
  | n :: ns => n * size ns

/-- The spaces known to the adapter. The entries of `nvec`, `low` and `high` are in row-major order. -/
inductive Space where
  | discrete (n : Nat)
  | multiBinary (n : Nat)
  | multiDiscrete (shape : List Nat) (nvec : List Nat)
  | box (shape : List Nat) (low high : List Num)
  | tuple (items : List Space)
  | dict (items : List (Name × Space))
  | other

/-- Observations and actions of a Gym environment. -/
inductive Value where
  | array (a : Arr)
  | tuple (items : List Value)
  | dict (items : List (Name × Value))

/-- Observations and actions on the side of the agent: one array, or an array for each name. -/
inductive Flat where
  | one (a : Arr)
  | many (items : List (Name × Arr))
  deriving DecidableEq, Repr

inductive Kind where
  | bool
  | int
  | float
  deriving DecidableEq, Repr

/-- `min_value` or `max_value` of a specification: `None`, a number or an array. -/
inductive Limit where
  | none
  | scalar (x : Num)
  | array (xs : List Num)
  deriving DecidableEq, Repr

/-- Specification of one component. `numValues` is present for integers, `low` and `high` for floats. -/
structure Leaf where
  kind : Kind
  shape : List Nat
  numValues : Option Nat := none
  low : Limit := .none
  high : Limit := .none
  deriving DecidableEq, Repr

/-- Result of `specs_from_gym_space`. -/
inductive Spec where
  | leaf (l : Leaf)
  | dict (items : List (Name × Leaf))
  deriving DecidableEq, Repr

inductive Err where
  /-- `Unknown Gym space.` (375) -/
  | unknown
  /-- `Invalid infinite box bounds` (307, 326) -/
  | infinite
  /-- `item(0)` of an empty array -/
  | empty
  /-- A name `type` in a nested dictionary, see above -/
  | type
  /-- `… contains inf or nan.` (429, 454) -/
  | notFinite
  /-- A failed `assert` -/
  | assertion
  /-- `next(iter(action))` of an empty dictionary (461) -/
  | stop
  /-- `name.index('_')` or `int(x)` (480), `rindex` (79) -/
  | value
  /-- `reshape` (481) -/
  | reshape
  /-- A missing entry (233, 261) -/
  | key
  /-- An array used as a dictionary (492), a dictionary used as an array (233, 236) -/
  | kind
  /-- A required argument is missing (184, 189) -/
  | required
  /-- A loop of the model does not end (does not occur) -/
  | fuel
  deriving DecidableEq, Repr

/-! ## Dictionaries -/

/-- `items[name]`. -/
def look {α : Type} (name : Name) : List (Name × α) → Option α
  | [] => none
  | (n, x) :: rest => if n = name then some x else look name rest

/-- `items[name] = x`: replaces the value in place or appends it. -/
def put {α : Type} (name : Name) (x : α) : List (Name × α) → List (Name × α)
  | [] => [(name, x)]
  | (n, y) :: rest => if n = name then (n, x) :: rest else (n, y) :: put name x rest

/-- A loop `for name, x in items.items(): result[prefix + name] = x`. -/
def putAll {α : Type} (pre : Name) : List (Name × α) → List (Name × α) → List (Name × α)
  | [], acc => acc
  | (n, x) :: rest, acc => putAll pre rest (put (pre ++ n) x acc)

/-- `'gymtpl{}'.format(n)`, `'gymmdc{}_'.format(n)`, `'gymbox{}_'.format(n)` -/
def tpl : Name := "gymtpl".toList
def mdc : Name := "gymmdc".toList
def gbox : Name := "gymbox".toList

/-- `'_'.join(str(x) for x in shape)` (285, 335, 434, 442). -/
def shapeName (shape : List Nat) : Name := ['_'].intercalate (shape.map digits)

/-! ## Specifications -/

/-- The entry `min_value` of a box (295-310). -/
def lowSpec (inf : Bool) (minValue : Option Rat) : List Num → Except Err Limit
  | [] => .error .empty
  | x :: xs =>
    if (x :: xs).all (· == x) then
      if lowLimit.lt x then .ok (.scalar x)
      else match minValue with
        | some m => .ok (.scalar (.fin m))
        | none => .ok .none
    else if inf then .ok (.array ((x :: xs).map fun y => if y.le lowLimit then .negInf else y))
    else if (x :: xs).all (lowLimit.lt ·) then .ok (.array (x :: xs))
    else match minValue with
      | none => .error .infinite
      | some m => .ok (.array ((x :: xs).map fun y => if y.le lowLimit then .fin m else y))

/-- The entry `max_value` of a box (314-329). -/
def highSpec (inf : Bool) (maxValue : Option Rat) : List Num → Except Err Limit
  | [] => .error .empty
  | x :: xs =>
    if (x :: xs).all (· == x) then
      if x.lt highLimit then .ok (.scalar x)
      else match maxValue with
        | some m => .ok (.scalar (.fin m))
        | none => .ok .none
    else if inf then .ok (.array ((x :: xs).map fun y => if highLimit.le y then .posInf else y))
    else if (x :: xs).all (Num.lt · highLimit) then .ok (.array (x :: xs))
    else match maxValue with
      | none => .error .infinite
      | some m => .ok (.array ((x :: xs).map fun y => if highLimit.le y then .fin m else y))

/-- The specification of a box (292-345). -/
def boxSpec (inf : Bool) (minValue maxValue : Option Rat) (shape : List Nat) (low high : List Num) : Except Err Leaf :=
  match lowSpec inf minValue low with
  | .error e => .error e
  | .ok lo =>
    match highSpec inf maxValue high with
    | .error e => .error e
    | .ok hi => .ok { kind := .float, shape := shape, low := lo, high := hi }

/-- The specifications of the numbers of a `MultiDiscrete` space with different numbers of values (283-290). -/
def mdcSpecs (shape : Name) : Nat → List Nat → List (Name × Leaf) → List (Name × Leaf)
  | _, [], acc => acc
  | n, x :: xs, acc =>
    mdcSpecs shape (n + 1) xs
      (put (mdc ++ digits n ++ '_' :: shape) { kind := .int, shape := [], numValues := some x } acc)

/-- `specs[name] = spec` for a component, `specs['{}_{}'.format(name, …)] = …` for a dictionary (354-358, 367-371). -/
def putSpec (name : Name) (spec : Spec) (acc : List (Name × Leaf)) : Except Err (List (Name × Leaf)) :=
  match spec with
  | .leaf l => .ok (put name l acc)
  | .dict items => if (look "type".toList items).isSome then .error .type else .ok (putAll (name ++ ['_']) items acc)

mutual
/-- `specs_from_gym_space` (267-375). -/
def specs (inf : Bool) (minValue maxValue : Option Rat) : Space → Except Err Spec
  | .discrete n => .ok (.leaf { kind := .int, shape := [], numValues := some n })
  | .multiBinary n => .ok (.leaf { kind := .bool, shape := [n] })
  | .multiDiscrete _ [] => .error .empty
  | .multiDiscrete shape (x :: xs) =>
    if (x :: xs).all (· == x) then .ok (.leaf { kind := .int, shape := shape, numValues := some x })
    else .ok (.dict (mdcSpecs (shapeName shape) 0 (x :: xs) []))
  | .box shape low high =>
    match boxSpec inf minValue maxValue shape low high with
    | .error e => .error e
    | .ok l => .ok (.leaf l)
  | .tuple items =>
    match tupleSpecs inf 0 items [] with
    | .error e => .error e
    | .ok l => .ok (.dict l)
  | .dict items =>
    match dictSpecs inf items [] with
    | .error e => .error e
    | .ok l => .ok (.dict l)
  | .other => .error .unknown
/-- The loop over the components of a tuple (348-358). -/
def tupleSpecs (inf : Bool) : Nat → List Space → List (Name × Leaf) → Except Err (List (Name × Leaf))
  | _, [], acc => .ok acc
  | n, s :: rest, acc =>
    match specs inf none none s with
    | .error e => .error e
    | .ok spec =>
      match putSpec (tpl ++ digits n) spec acc with
      | .error e => .error e
      | .ok acc' => tupleSpecs inf (n + 1) rest acc'
/-- The loop over the components of a dictionary (362-371). -/
def dictSpecs (inf : Bool) : List (Name × Space) → List (Name × Leaf) → Except Err (List (Name × Leaf))
  | [], acc => .ok acc
  | (name, s) :: rest, acc =>
    match specs inf none none s with
    | .error e => .error e
    | .ok spec =>
      match putSpec name spec acc with
      | .error e => .error e
      | .ok acc' => dictSpecs inf rest acc'
end

/-! ## Observations -/

/-- `name in states_spec`, where this is a dictionary of specifications (none of the names is one in the specification of one
component, see above). -/
def Spec.find (name : Name) : Spec → Option Leaf
  | .leaf _ => none
  | .dict items => look name items

/-- The only component whose name starts with the given prefix (385-390, 414-419). -/
def Spec.only (pre : Name) : Spec → Option Leaf
  | .leaf _ => none
  | .dict items =>
    match items.filter (pre.isPrefixOf ·.1) with
    | [x] => some x.2
    | _ => none

/-- The elements of an array under their own names (431-445). -/
def split (pre shape : Name) : Nat → List Num → List (Name × Arr) → List (Name × Arr)
  | _, [], acc => acc
  | n, x :: xs, acc => split pre shape (n + 1) xs (put (pre ++ digits n ++ '_' :: shape) ⟨[], [x]⟩ acc)

/-- `flatten_state` of an array (428-448). -/
def flattenArr (spec : Spec) (a : Arr) : Except Err Flat :=
  if !a.elems.all Num.isFin then .error .notFinite
  else if (spec.find (gbox ++ digits 0)).isSome then .ok (.many (split gbox (shapeName [a.elems.length]) 0 a.elems []))
  else if (spec.find (mdc ++ digits 0)).isSome then .ok (.many (split mdc (shapeName [a.elems.length]) 0 a.elems []))
  else .ok (.one a)

/-- `states[name] = state`, or `states['{}_{}'.format(name, …)] = …` for a dictionary (392-396, 421-425). -/
def putFlat (name : Name) (state : Flat) (acc : List (Name × Arr)) : List (Name × Arr) :=
  match state with
  | .one a => put name a acc
  | .many items => putAll (name ++ ['_']) items acc

/-- The specification for a component of a state (382-390, 411-419). -/
def Spec.component (name : Name) (spec : Spec) : Except Err Leaf :=
  match spec.find name with
  | some l => .ok l
  | none =>
    match spec.only (name ++ ['_']) with
    | some l => .ok l
    | none => .error .assertion

/-- Names of the masks of the actions (402-409). -/
def maskNames : Option Spec → List Name
  | none => []
  | some (.leaf _) => ["action_mask".toList]
  | some (.dict items) => items.map (·.1 ++ "_mask".toList)

/-- The masks of the actions, which are moved to the result at once (402-409). A mask is taken to be an array. -/
def popMasks (state : List (Name × Value)) : List Name → List (Name × Arr) → Except Err (List (Name × Arr))
  | [], acc => .ok acc
  | name :: rest, acc =>
    match look name state with
    | none => popMasks state rest acc
    | some (.array a) => popMasks state rest (put name a acc)
    | some _ => .error .kind

mutual
/-- `flatten_state` (377-448). -/
def flattenState (spec : Spec) (actions : Option Spec) : Value → Except Err Flat
  | .array a => flattenArr spec a
  | .tuple items => flattenTuple spec 0 items []
  | .dict items =>
    match popMasks items (maskNames actions) [] with
    | .error e => .error e
    | .ok acc => flattenDict spec (maskNames actions) items acc
/-- The loop over the components of a tuple (381-396). -/
def flattenTuple (spec : Spec) : Nat → List Value → List (Name × Arr) → Except Err Flat
  | _, [], acc => .ok (.many acc)
  | n, v :: rest, acc =>
    match spec.component (tpl ++ digits n) with
    | .error e => .error e
    | .ok l =>
      match flattenState (.leaf l) none v with
      | .error e => .error e
      | .ok f => flattenTuple spec (n + 1) rest (putFlat (tpl ++ digits n) f acc)
/-- The loop over the components of a dictionary (410-425), except those moved before. -/
def flattenDict (spec : Spec) (moved : List Name) : List (Name × Value) → List (Name × Arr) → Except Err Flat
  | [], acc => .ok (.many acc)
  | (name, v) :: rest, acc =>
    if name ∈ moved then flattenDict spec moved rest acc
    else
      match spec.component name with
      | .error e => .error e
      | .ok l =>
        match flattenState (.leaf l) none v with
        | .error e => .error e
        | .ok f => flattenDict spec moved rest (putFlat name f acc)
end

/-! ## Clipping and dropping of observation values -/

/-- The arguments of the adapter which concern the observations. -/
structure Options where
  minValue : Option Rat := none
  maxValue : Option Rat := none
  drop : Option (List Nat) := none

/-- `sorted` -/
def insert (n : Nat) : List Nat → List Nat
  | [] => [n]
  | m :: rest => if n ≤ m then n :: m :: rest else m :: insert n rest
def sort : List Nat → List Nat
  | [] => []
  | n :: rest => insert n (sort rest)

/-- The specification of the states (182-202). A negative size is taken as zero. -/
def statesSpec (opts : Options) (space : Space) : Except Err Spec :=
  let spec : Except Err Spec :=
    match opts.minValue, opts.maxValue with
    | some _, none => .error .required
    | none, some _ => .error .required
    | some m, some M => specs false (some m) (some M) space
    | none, none => specs true none none space
  match spec, opts.drop with
  | .error e, _ => .error e
  | .ok s, none => .ok s
  | .ok (.leaf l), some indices =>
    match l.shape with
    | [n] => .ok (.leaf { l with shape := [n - indices.length] })
    | _ => .error .assertion
  | .ok (.dict _), some _ => .error .assertion

/-- `np.maximum(x, limit)` and `np.minimum(x, limit)` for numbers other than `nan`. -/
def Num.max (x y : Num) : Num := if x.le y then y else x
def Num.min (x y : Num) : Num := if x.le y then x else y

/-- One side of `np.clip`, with broadcasting of a number. -/
def clipWith (f : Num → Num → Num) (xs : List Num) : Limit → Except Err (List Num)
  | .none => .ok xs
  | .scalar m => .ok (xs.map (f · m))
  | .array ms => if ms.length = xs.length then .ok (List.zipWith f xs ms) else .error .reshape

/-- `np.clip(states, self.states_spec['min_value'], self.states_spec['max_value'])` (233, 261). -/
def clip (spec : Spec) (state : Flat) : Except Err Flat :=
  match spec, state with
  | .dict _, _ => .error .key
  | _, .many _ => .error .kind
  | .leaf l, .one a =>
    if l.kind ≠ .float then .error .key
    else
      match clipWith Num.max a.elems l.low with
      | .error e => .error e
      | .ok xs =>
        match clipWith Num.min xs l.high with
        | .error e => .error e
        | .ok ys => .ok (.one ⟨a.shape, ys⟩)

/-- `np.concatenate([states[:index], states[index + 1:]])` for the indices in descending order (235-236, 263-264). -/
def dropElems : List Nat → List Num → List Num
  | [], xs => xs
  | i :: rest, xs =>
    let ys := dropElems rest xs
    ys.take i ++ ys.drop (i + 1)

def dropStates (indices : List Nat) (state : Flat) : Except Err Flat :=
  match state with
  | .many _ => .error .kind
  | .one a => .ok (.one ⟨[(dropElems (sort indices) a.elems).length], dropElems (sort indices) a.elems⟩)

/-- `if self.min_value is not None` (232-233, 260-261). -/
def clipped (opts : Options) (spec : Spec) (state : Flat) : Except Err Flat :=
  if opts.minValue.isSome then clip spec state else .ok state

/-- What `reset` and `execute` return as states for an observation of the environment (229-236, 257-264). -/
def observe (opts : Options) (spec : Spec) (actions : Spec) (v : Value) : Except Err Flat :=
  match flattenState spec (some actions) v with
  | .error e => .error e
  | .ok f =>
    match clipped opts spec f with
    | .error e => .error e
    | .ok g =>
      match opts.drop with
      | none => .ok g
      | some indices => dropStates indices g

/-! ## Actions -/

/-- `all(name.startswith(prefix) for name in action)` -/
def allStart (pre : Name) (action : List (Name × Arr)) : Bool := action.all (pre.isPrefixOf ·.1)

/-- `unflatten_action` of an array (452-456). -/
def unflattenArr (a : Arr) : Except Err Arr := if a.elems.all Num.isFin then .ok a else .error .notFinite

/-- The loop which collects the components of an array or a tuple (462-476). -/
def collect (kind : Name) (action : List (Name × Arr)) : Nat → Nat → Except Err (List Arr)
  | 0, _ => .error .fuel
  | fuel + 1, n =>
    let next (a : Arr) : Except Err (List Arr) :=
      match unflattenArr a with
      | .error e => .error e
      | .ok x =>
        match collect kind action fuel (n + 1) with
        | .error e => .error e
        | .ok xs => .ok (x :: xs)
    if action.any ((kind ++ digits n ++ ['_']).isPrefixOf ·.1) then
      match action.filter ((kind ++ digits n).isPrefixOf ·.1) with
      | [x] => next x.2
      | _ => .error .assertion
    else
      match look (kind ++ digits n) action with
      | some x => next x
      | none => .ok []

/-- `int(x)` of the digits of a number (blanks and signs do not occur). -/
def parseNat (s : Name) : Option Nat := if s ≠ [] ∧ s.all Char.isDigit then some (Nat.ofDigitChars 10 s 0) else none

/-- `name[name.index('_') + 1:]` -/
def afterUnderscore : Name → Option Name
  | [] => none
  | c :: cs => if c = '_' then some cs else afterUnderscore cs

/-- `name.split('_', 1)` -/
def beforeUnderscore : Name → Name
  | [] => []
  | c :: cs => if c = '_' then [] else c :: beforeUnderscore cs

/-- `s.split('_')` -/
def splitUnderscore : Name → List Name
  | [] => [[]]
  | c :: cs =>
    if c = '_' then [] :: splitUnderscore cs
    else
      match splitUnderscore cs with
      | [] => [[c]]
      | part :: rest => (c :: part) :: rest

def parseAll : List Name → Option (List Nat)
  | [] => some []
  | s :: rest =>
    match parseNat s, parseAll rest with
    | some n, some ns => some (n :: ns)
    | _, _ => none

/-- `tuple(int(x) for x in name[name.index('_') + 1:].split('_'))` (480). -/
def parseShape (name : Name) : Option (List Nat) :=
  match afterUnderscore name with
  | none => none
  | some s => parseAll (splitUnderscore s)

/-- `np.array(actions).reshape(shape)` (481). -/
def reshape (xs : List Arr) (shape : List Nat) : Except Err Arr :=
  if (xs.map (·.elems)).flatten.length = size shape then .ok ⟨shape, (xs.map (·.elems)).flatten⟩ else .error .reshape

/-- An entry of the dictionary under construction (486-494). -/
inductive Item where
  | one (a : Arr)
  | many (items : List (Name × Arr))

/-- The loop which separates the first parts of the names (487-494). -/
def group : List (Name × Arr) → List (Name × Item) → Except Err (List (Name × Item))
  | [], acc => .ok acc
  | (name, a) :: rest, acc =>
    match afterUnderscore name with
    | none => group rest (put name (.one a) acc)
    | some inner =>
      match look (beforeUnderscore name) acc with
      | none => group rest (put (beforeUnderscore name) (.many [(inner, a)]) acc)
      | some (.many items) => group rest (put (beforeUnderscore name) (.many (put inner a items)) acc)
      | some (.one _) => .error .kind

/-- The loop over the entries of the dictionary (495-497). -/
def unflattenItems (f : List (Name × Arr) → Except Err Value) : List (Name × Item) → Except Err (List (Name × Value))
  | [] => .ok []
  | (name, .one a) :: rest =>
    match unflattenItems f rest with
    | .error e => .error e
    | .ok vs => .ok ((name, .array a) :: vs)
  | (name, .many items) :: rest =>
    match f items with
    | .error e => .error e
    | .ok v =>
      match unflattenItems f rest with
      | .error e => .error e
      | .ok vs => .ok ((name, v) :: vs)

/-- `unflatten_action` of a dictionary (458-498). -/
def unflattenMany : Nat → List (Name × Arr) → Except Err Value
  | 0, _ => .error .fuel
  | fuel + 1, action =>
    if allStart mdc action || allStart gbox action || allStart tpl action then
      match action with
      | [] => .error .stop
      | (name, _) :: _ =>
        match collect (name.take 6) action (action.length + 1) 0 with
        | .error e => .error e
        | .ok xs =>
          if allStart mdc action || allStart gbox action then
            match parseShape name with
            | none => .error .value
            | some shape =>
              match reshape xs shape with
              | .error e => .error e
              | .ok a => .ok (.array a)
          else .ok (.tuple (xs.map .array))
    else
      match group action [] with
      | .error e => .error e
      | .ok items =>
        match unflattenItems (unflattenMany fuel) items with
        | .error e => .error e
        | .ok vs => .ok (.dict vs)

/-- A bound for the depth of the dictionaries in `unflatten_action`: the names get shorter. -/
def depth : List (Name × Arr) → Nat
  | [] => 1
  | (name, _) :: rest => name.length + 1 + depth rest

/-- `unflatten_action` (450-498). -/
def unflatten : Flat → Except Err Value
  | .one a =>
    match unflattenArr a with
    | .error e => .error e
    | .ok x => .ok (.array x)
  | .many action => unflattenMany (depth action) action

end Verif.Gym
