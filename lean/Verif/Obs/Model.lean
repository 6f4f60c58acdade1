/-!
# Model of the forms of observe

Models `tensorforce/agents/recorder.py`, `Recorder.observe` (329-410, 486-489), and `tensorforce/agents/agent.py`, `Agent.observe`
(502-568), with the checks of `TensorSpec.to_tensor` for terminals and interactions (tensor_spec.py 149-194, recorder.py 80-82).

Simplifications:
* There is no recorder (lines 412-484, see C16 and C47) and no saver; `Model.observe` does not fail, its assertions are a matter of C127.
* An argument is a single value, an array without dimension, a list, an array with one dimension, or something with two dimensions, of
  which only the shape is modelled; `parallel` with two dimensions is refused here (the code raises a TypeError later on).
* Rewards are of any type with zero, and finite (`to_tensor` refuses others); dtypes are left out (line 394 compares a dtype with a type,
  which is never identical, but booleans are converted later on, agent.py line 541). Single values that are no numbers are left out.
-/

namespace Verif.Obs

/-- A single terminal value: a boolean of Python, one of NumPy, or a number. -/
inductive Code where
  | py (b : Bool)
  | np (b : Bool)
  | num (z : Int)
  deriving Repr, DecidableEq

/-- `int(terminal)` -/
def Code.toInt : Code → Int
  | .py b => if b then 1 else 0
  | .np b => if b then 1 else 0
  | .num z => z

inductive Arg (α : Type) where
  | single (x : α)
  | array0 (x : α)
  | list (xs : List α)
  | array (xs : List α)
  | nested (rows cols : Nat)
  deriving Repr, DecidableEq

/-- `util.is_iterable(x)` (util.py 121-128) or an array with dimensions, lines 331, 345-346 and 359-360. -/
def Arg.batched {α : Type} : Arg α → Bool
  | .single _ => false
  | .array0 _ => false
  | .list _ => true
  | .array _ => true
  | .nested _ _ => true

inductive Err where
  /-- `assert num_parallel == self.parallel_interactions` -/
  | assertion
  /-- `shape[0]` of an array without dimension. -/
  | tuple
  /-- "len(parallel) = 0" -/
  | empty
  /-- "!= parallel length" -/
  | length
  /-- An interaction out of range. -/
  | index
  /-- "Calling agent.observe must be preceded by agent.act." -/
  | precede
  /-- "Episode longer than max_episode_timesteps." -/
  | tooLong
  /-- `to_tensor`: the terminal is none of 0, 1, 2. -/
  | terminal
  /-- `to_tensor`: the interaction is out of range. -/
  | parallel
  /-- `parallel` has two dimensions. -/
  | nested
  deriving Repr, DecidableEq

/-- An array of NumPy with up to two dimensions. -/
inductive Arr (α : Type) where
  | zero (x : α)
  | one (xs : List α)
  | two (rows cols : Nat)
  deriving Repr, DecidableEq

/-- `np.asarray(x)` -/
def asarray {α β : Type} (f : α → β) : Arg α → Arr β
  | .single x => .zero (f x)
  | .array0 x => .zero (f x)
  | .list xs => .one (xs.map f)
  | .array xs => .one (xs.map f)
  | .nested r c => .two r c

/-- `x.shape[0]` of something batched. -/
def Arg.count {α : Type} : Arg α → Nat
  | .single _ => 1
  | .array0 _ => 1
  | .list xs => xs.length
  | .array xs => xs.length
  | .nested r _ => r

variable {R : Type} [DecidableEq R] [Zero R]

/-- The rewards if not batched, lines 348-351 and 363-366. -/
def rewardOr (count : Nat) (reward : Arg R) : Arr R :=
  match reward with
  | .single x => if x = 0 then .one (List.replicate count 0) else .zero x
  | r => asarray id r

/-- The terminals, lines 334-337 and 367-370. -/
def terminalOr (count : Nat) (terminal : Arg Code) : Arr Int :=
  match terminal with
  | .single (.py false) => .one (List.replicate count 0)
  | t => asarray Code.toInt t

/-- The interactions, lines 338-342 and 352-356. -/
def parallelOr (interactions count : Nat) (parallel : Arg Int) : Except Err (Arr Int) :=
  match parallel with
  | .single p =>
    if p = 0 then
      (if count = interactions then .ok (.one ((List.range count).map (fun (k : Nat) => (k : Int)))) else .error .assertion)
    else .ok (.zero p)
  | p => .ok (asarray id p)

/-- The single value of lines 373-376. -/
def single {α : Type} (f : α → β) : Arg α → Arr β
  | .single x => .one [f x]
  | .array0 x => .one [f x]
  | a => asarray f a

/-- Lines 330-376. -/
def arrays (interactions : Nat) (reward : Arg R) (terminal : Arg Code) (parallel : Arg Int) : Except Err (Arr R × Arr Int × Arr Int) :=
  if reward.batched then
    match parallelOr interactions reward.count parallel with
    | .error e => .error e
    | .ok p => .ok (asarray id reward, terminalOr reward.count terminal, p)
  else if terminal.batched then
    match parallelOr interactions terminal.count parallel with
    | .error e => .error e
    | .ok p => .ok (rewardOr terminal.count reward, asarray Code.toInt terminal, p)
  else if parallel.batched then
    .ok (rewardOr parallel.count reward, terminalOr parallel.count terminal, asarray id parallel)
  else .ok (single id reward, single Code.toInt terminal, single id parallel)

/-- Lines 378-391: interactions, terminals and rewards of the same length. -/
def consistent (r : Arr R) (t p : Arr Int) : Except Err (List (Int × Int × R)) :=
  match p with
  | .zero _ => .error .tuple
  | .two _ _ => .error .nested
  | .one ps =>
    if ps.length = 0 then .error .empty
    else
      match r with
      | .zero _ => .error .length
      | .two _ _ => .error .length
      | .one rs =>
        if rs.length ≠ ps.length then .error .length
        else
          match t with
          | .zero _ => .error .length
          | .two _ _ => .error .length
          | .one ts => if ts.length ≠ ps.length then .error .length else .ok (ps.zip (ts.zip rs))

/-- Lines 330-391. -/
def forms (interactions : Nat) (reward : Arg R) (terminal : Arg Code) (parallel : Arg Int) : Except Err (List (Int × Int × R)) :=
  match arrays interactions reward terminal parallel with
  | .error e => .error e
  | .ok (r, t, p) => consistent r t p

structure Config where
  interactions : Nat
  limit : Option Nat
  /-- `config.buffer_observe`; `none` is `'episode'`. -/
  buffer : Option Nat
  deriving Repr, DecidableEq

/-- A call of `Model.observe`. -/
structure Call (R : Type) where
  interaction : Nat
  terminal : List Int
  reward : List R
  deriving Repr, DecidableEq

structure State (R : Type) where
  completed : List Bool
  counter : List Nat
  terminals : List (List Int)
  rewards : List (List R)
  /-- The calls of `Model.observe`, in order (bookkeeping for the statements). -/
  sent : List (Call R)
  deriving Repr, DecidableEq

/-- `initialize`, recorder.py 104-110 and agent.py 290-296, and `reset` without the calls sent. -/
def State.init (n : Nat) : State R :=
  ⟨List.replicate n true, List.replicate n 0, List.replicate n [], List.replicate n [], []⟩

/-- The place of an index; negative ones count from the end. -/
def place (n : Nat) (p : Int) : Option Nat :=
  if 0 ≤ p then (if p < n then some p.toNat else none)
  else if -(n : Int) ≤ p then some (p + n).toNat
  else none

/-- Places of all interactions. -/
def places (n : Nat) : List (Int × Int × R) → Option (List (Nat × Int × Int × R))
  | [] => some []
  | (p, t, r) :: l =>
    match place n p with
    | none => none
    | some k =>
      match places n l with
      | none => none
      | some ks => some ((k, p, t, r) :: ks)

/-- `self.timestep_counter[parallel] += 1`, line 405: once for each interaction. -/
def increment (counter : List Nat) (ks : List Nat) : List Nat :=
  counter.mapIdx (fun i c => if ks.contains i then c + 1 else c)

/-- Lines 406-409. -/
def exceeds (limit : Option Nat) (counter : List Nat) (l : List (Nat × Int × Int × R)) : Bool :=
  match limit with
  | none => false
  | some m => l.any (fun e => e.2.2.1 == 0 && decide (m < counter.getD e.1 0))

/-- Line 410; values assigned later replace earlier ones. -/
def restart (incremented counter : List Nat) : List (Nat × Int × Int × R) → List Nat
  | [] => counter
  | e :: l => restart incremented (counter.set e.1 (if 0 < e.2.2.1 then 0 else incremented.getD e.1 0)) l

/-- agent.py lines 533-538. -/
def keeps (buffer : Option Nat) (t : Int) (len : Nat) : Bool :=
  t == 0 && (match buffer with | none => true | some b => decide (len < b))

/-- `to_tensor` of terminals and interaction, agent.py lines 546-555. -/
def convert (n : Nat) (ts : List Int) (p : Int) : Option Err :=
  if !ts.all (fun t => decide (0 ≤ t) && decide (t < 3)) then some .terminal
  else if p < 0 ∨ (n : Int) ≤ p then some .parallel
  else none

/-- agent.py lines 525-563. -/
def loop (c : Config) (st : State R) : List (Nat × Int × Int × R) → State R × Except Err Unit
  | [] => (st, .ok ())
  | (k, p, t, r) :: l =>
    let ts := st.terminals.getD k [] ++ [t]
    let rs := st.rewards.getD k [] ++ [r]
    if keeps c.buffer t ts.length then loop c { st with terminals := st.terminals.set k ts, rewards := st.rewards.set k rs } l
    else
      let st' := { st with terminals := st.terminals.set k [], rewards := st.rewards.set k [] }
      match convert c.interactions ts p with
      | some e => (st', .error e)
      | none => loop c { st' with sent := st'.sent ++ [⟨k, ts, rs⟩] } l

/-- `Agent.observe`: the state afterwards, also after an exception. -/
def observe (c : Config) (st : State R) (reward : Arg R) (terminal : Arg Code) (parallel : Arg Int) : State R × Except Err Unit :=
  match forms c.interactions reward terminal parallel with
  | .error e => (st, .error e)
  | .ok l =>
    match places c.interactions l with
    | none => (st, .error .index)
    | some ks =>
      if ks.any (fun e => st.completed.getD e.1 false) then (st, .error .precede)
      else
        let counter := increment st.counter (ks.map (·.1))
        let st := { st with completed := st.completed.mapIdx (fun i b => b || (ks.map (·.1)).contains i), counter := counter }
        if exceeds c.limit counter ks then (st, .error .tooLong)
        else loop c { st with counter := restart counter counter ks } ks

/-- A step of a history; `act` is successful, for interactions whose time steps are completed. -/
inductive Op (R : Type) where
  | act (interactions : List Nat)
  | observe (reward : Arg R) (terminal : Arg Code) (parallel : Arg Int)
  | reset
  deriving Repr, DecidableEq

/-- One step; for `act` see C14, for `reset` agent.py lines 332-352. -/
def step (c : Config) (st : State R) : Op R → State R
  | .act ks => { st with completed := st.completed.mapIdx (fun i b => b && !ks.contains i) }
  | .observe r t p => (observe c st r t p).1
  | .reset => { State.init c.interactions with sent := st.sent }

/-- The state after some steps. -/
def run (c : Config) (ops : List (Op R)) : State R := ops.foldl (step c) (State.init c.interactions)

end Verif.Obs
