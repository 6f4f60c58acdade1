import Verif.Memory.Model

/-!
# Model of the act/observe buffer and of return estimation

Models `tensorforce/core/models/tensorforce.py`: buffer capacity (lines 633-678), the buffer write of
`core_act` (1288-1326), `core_observe` (1335-1500), `_nonterminal_experience` (1655-1798),
`core_experience` (1800-1841), `_terminal_experience_iterative` (1843-1977) and
`_terminal_experience_parallel` (1979-2099).

Simplifications (all definitions of this file):
* states, internals, auxiliaries and actions are buffered with the same indices: one buffer of records `σ`;
* only one row (one parallel interaction) of the buffers is modelled, rows do not interact;
* floats are exact rationals; a non-finite float (the result of a division by zero) is `none`;
* the baseline value prediction is a fixed function `V` of the record (on-policy baseline horizon 0);
* summaries, tracking, reward processing and preprocessor resets are left out;
* an `observe` call with more timesteps than there were `act` calls since the start of the episode
  (ruled out by the agent's protocol) is an error;
* `memory.enqueue` appends the batch to a log `out` (what the memory does with it: `Verif.Memory`).
-/

namespace Verif.Returns

open Verif.Memory (gather scatter slots rangeFrom)

/-- Reward estimation options, `tensorforce.py` lines 162-194, 540-550: `gamma` is `reward_discount`,
`lam = none` means `trace_decay.is_constant(value=1.0)`, `early` means `predict_horizon_values == 'early'`. -/
structure Config (σ : Type) where
  gamma : Rat
  lam : Option Rat
  early : Bool
  predTerm : Bool
  V : σ → Rat

/-- Float division: a zero divisor gives a non-finite value. -/
def fdiv (a b : Rat) : Option Rat := if b = 0 then none else some (a / b)

/-- `tf.scan(fn, elems, initializer, reverse=True)`. -/
def scanRev {α β : Type} (f : β → α → β) (init : β) : List α → List β
  | [] => []
  | x :: xs => f ((scanRev f init xs).headD init) x :: scanRev f init xs

/-- Python slice `l[i: i + n]`. -/
def slice {α : Type} (l : List α) (i n : Nat) : List α := (l.drop i).take n

/-- Elementwise addition; different lengths are an error (broadcasting of length-1 tensors is not modelled). -/
def vadd (x y : List Rat) : Option (List Rat) :=
  if x.length = y.length then some (List.zipWith (· + ·) x y) else none

def vscale (a : Rat) (x : List Rat) : List Rat := x.map (a * ·)

/-- `recursive_return` of the vectorised variants: lines 1752-1765 and, identically, 2082-2095. -/
def retStep {σ : Type} (c : Config σ) (reward values : List Rat) (n : Nat) (next : List Rat) (i : Nat) :
    Option (List Rat) :=
  match c.lam with
  | none => vadd (slice reward i n) (vscale c.gamma next)
  | some l =>
    (vadd (vscale (1 - l) (slice values i n)) (vscale l next)).bind fun next' =>
      vadd (slice reward i n) (vscale c.gamma next')

/-- `tf.foldr(fn=recursive_return, elems=tf.range(h), initializer)`: lines 1767-1769, 2097-2099. -/
def foldReturns {σ : Type} (c : Config σ) (reward values : List Rat) (n h : Nat) (init : List Rat) :
    Option (List Rat) :=
  (List.range h).foldr (fun i acc => acc.bind (fun next => retStep c reward values n next i)) (some init)

/-- The return computation of `_nonterminal_experience`, lines 1662-1769: `states` and `reward` are the
buffer contents from `buffer_start` to `buffer_index`, `nc` is `num_complete`. -/
def nonterminalReturns {σ : Type} (c : Config σ) (h nc : Nat) (states : List σ) (reward : List Rat) :
    Option (List Rat) :=
  let reward' := reward.dropLast                     -- lines 1747-1749: limit is buffer_index - 1
  if c.early = false then                            -- lines 1663-1667
    match c.lam with
    | none => foldReturns c reward' [] nc h (List.replicate nc 0)
    | some _ => none                                 -- assert trace_decay constant 1.0
  else
    match c.lam with
    | none =>                                        -- lines 1689-1697, 1741-1742
      foldReturns c reward' [] nc h ((states.drop h).map c.V)
    | some _ =>                                      -- lines 1698-1704, 1743-1744
      let values := (states.drop 1).map c.V
      foldReturns c reward' values nc h (values.drop (h - 1))

/-- `_terminal_experience_iterative`, lines 1843-1977. -/
def iterative {σ : Type} (c : Config σ) (states : List σ) (terminal : List Nat) (reward : List Rat) :
    Option (List (Option Rat)) :=
  match terminal.getLast?, reward.getLast?, states.getLast? with
  | some tl, some rl, some sl =>
    match c.lam with
    | none =>
      let predicted :=
        if c.early = false then fdiv (-rl) c.gamma             -- line 1858
        else fdiv (c.V sl - rl) c.gamma                        -- line 1908
      let tv := if c.predTerm then predicted                   -- lines 1859-1861, 1911-1918
        else if tl = 1 then some 0 else predicted
      some (scanRev (fun next r => next.map (fun x => r + c.gamma * x)) tv reward)
    | some l =>
      let values := (states.drop 1).map c.V                    -- lines 1938-1952
      match values.getLast? with
      | none => none                                           -- line 1956: values[-1] of an empty tensor
      | some vl =>
        let predicted := fdiv (vl - rl) c.gamma                -- line 1956
        let tv := if c.predTerm then predicted                 -- lines 1959-1961
          else if tl = 1 then some 0 else predicted
        let values' := values.map some ++ [tv]                 -- line 1963
        some (scanRev (fun next rv =>                          -- lines 1969-1977
            (rv.2.bind fun v => next.map fun x => (1 - l) * v + l * x).map fun x => rv.1 + c.gamma * x)
          tv (reward.zip values'))
  | _, _, _ => none

/-- `_terminal_experience_parallel`, lines 1979-2099. -/
def parallel {σ : Type} (c : Config σ) (h : Nat) (states : List σ) (terminal : List Nat) (reward : List Rat) :
    Option (List Rat) :=
  match terminal.getLast?, reward.getLast? with
  | some tl, some rl =>
    let n := reward.length
    if c.early = false then
      match c.lam with
      | none =>
        let tv := if c.predTerm then 0 else if tl = 1 then rl else 0        -- lines 1992-1995
        let zeros := List.replicate n (0 : Rat)                              -- lines 1998-2000
        foldReturns c (reward.dropLast ++ [tv] ++ zeros.take h) [] n h zeros -- lines 2001-2003
      | some _ => none                                                       -- line 1989
    else
      let values := match c.lam with                                         -- lines 2016-2057
        | none => (states.drop h).map c.V
        | some _ => (states.drop 1).map c.V
      match values.getLast? with
      | none => none                                                         -- line 2060
      | some vl =>
        let tv := if c.predTerm then vl else if tl = 1 then rl else vl       -- lines 2060-2063
        let reward' := reward.dropLast ++ [tv] ++ List.replicate (h - 1) 0   -- lines 2066-2069
        let values' := values ++ List.replicate h 0                          -- lines 2070-2073
        let init := match c.lam with                                         -- lines 2076-2079
          | none => values'
          | some _ => values'.drop (h - 1)
        foldReturns c reward' values' n h init
  | _, _ => none

/-- `core_experience`, lines 1800-1835: `h = none` is `reward_horizon == 'episode'`. The number of states
and of rewards must agree, otherwise `memory.enqueue` (lines 1838-1841) fails. -/
def coreExperience {σ : Type} (c : Config σ) (h : Option Nat) (states : List σ) (terminal : List Nat)
    (reward : List Rat) : Option (List (Option Rat)) :=
  if states.length = reward.length then
    match h with
    | none => iterative c states terminal reward
    | some h =>
      if reward.length ≤ h then iterative c states terminal reward
      else (parallel c h states terminal reward).map (List.map some)
  else none

/-- The three ways observations are buffered, lines 1362, 1382, 1418. -/
inductive Mode where
  | agentBuffered     -- buffer_observe == 'episode'
  | episodeBuffered   -- reward_horizon == 'episode' or parallel_interactions > 1
  | circular
  deriving DecidableEq, Repr

/-- Static configuration: mode, buffer capacity and whether `reward_horizon == 'episode'`. -/
structure Setup where
  mode : Mode
  cap : Nat
  episodeHorizon : Bool
  deriving DecidableEq, Repr

/-- Lines 633-639 and 668-678: capacity and mode as functions of the agent's options; `bo = none` is
`buffer_observe == 'episode'`, `hmax = none` is `reward_horizon == 'episode'`, `met` is
`max_episode_timesteps`. -/
def Setup.ofOptions (bo hmax met : Option Nat) (par : Nat) : Option Setup :=
  match bo with
  | none => met.map fun m => ⟨.agentBuffered, m, hmax.isNone⟩
  | some b =>
    match hmax with
    | none => met.map fun m => ⟨.episodeBuffered, m, true⟩
    | some h =>
      if par > 1 then met.map fun m => ⟨.episodeBuffered, m, false⟩
      else some ⟨.circular, match met with | none => b + h | some m => min (b + h) m, false⟩

/-- Buffers of one interaction (lines 627-678) and the log of what was handed to the memory. -/
structure Buf (σ : Type) where
  S : List σ
  T : List Nat
  R : List Rat
  start : Nat
  index : Nat
  out : List (σ × Nat × Option Rat)

/-- Zero-initialised buffers, lines 641-678; `z` is the zero record. -/
def Buf.init {σ : Type} (u : Setup) (z : σ) : Buf σ :=
  { S := List.replicate u.cap z, T := List.replicate u.cap 0, R := List.replicate u.cap 0
    start := 0, index := 0, out := [] }

/-- Buffer write of `core_act`, lines 1288-1326. -/
def Buf.act {σ : Type} (u : Setup) (b : Buf σ) (s : σ) : Option (Buf σ) :=
  let i := if u.mode = .circular then b.index % u.cap else b.index
  (scatter b.S [(i, s)]).map fun S => { b with S := S, index := b.index + 1 }

/-- `is_terminal`, line 1589. -/
def isTerminal (batch : List (Nat × Rat)) : Bool := decide (0 < (((0, 0) :: batch).getLastD (0, 0)).1)

/-- Pair up what is enqueued, lines 1782-1785, 1838-1841. -/
def records {σ : Type} (states : List σ) (terminal : List Nat) (returns : List (Option Rat)) :
    List (σ × Nat × Option Rat) := states.zip (terminal.zip returns)

/-- `fn_nonterminal` / `fn_terminal` of the three modes with `fn_terminal_continuation`
(lines 1362-1500); `h` is the current value of `reward_horizon`. -/
def Buf.observe {σ : Type} (c : Config σ) (u : Setup) (b : Buf σ) (h : Nat) (batch : List (Nat × Rat)) :
    Option (Buf σ) :=
  let n := batch.length
  let term := batch.map Prod.fst
  let rew := batch.map Prod.snd
  let horizon := if u.episodeHorizon then none else some h
  if b.index < n then none else
  match u.mode with
  | .agentBuffered =>
    if isTerminal batch then                                                     -- lines 1370-1380
      let states := b.S.take b.index
      (coreExperience c horizon states term rew).map fun ret =>
        { b with out := b.out ++ records states term ret, index := 0 }
    else if n = 0 then some b else none                                          -- lines 1366-1368
  | .episodeBuffered =>
    if isTerminal batch then                                                     -- lines 1402-1416
      let states := b.S.take b.index
      let term' := b.T.take (b.index - n) ++ term
      let rew' := b.R.take (b.index - n) ++ rew
      (coreExperience c horizon states term' rew').map fun ret =>
        { b with out := b.out ++ records states term' ret, index := 0 }
    else                                                                         -- lines 1387-1400
      let idx := rangeFrom (b.index - n) n
      (scatter b.T (idx.zip term)).bind fun T =>
      (scatter b.R (idx.zip rew)).map fun R => { b with T := T, R := R }
  | .circular =>
    if isTerminal batch then                                                     -- lines 1453-1485
      (gather b.S (slots u.cap b.start (b.index - b.start))).bind fun states =>
      (gather b.T (slots u.cap b.start (b.index - n - b.start))).bind fun T0 =>
      (gather b.R (slots u.cap b.start (b.index - n - b.start))).bind fun R0 =>
      (coreExperience c horizon states (T0 ++ term) (R0 ++ rew)).map fun ret =>
        { b with out := b.out ++ records states (T0 ++ term) ret, index := 0, start := 0 }
    else                                                                         -- lines 1426-1451
      let idx := slots u.cap (b.index - n) n
      (scatter b.T (idx.zip term)).bind fun T =>
      (scatter b.R (idx.zip rew)).bind fun R =>
      if b.index - b.start ≤ h then some { b with T := T, R := R }
      else                                                                       -- lines 1655-1798
        let nc := b.index - b.start - h
        (gather b.S (slots u.cap b.start (b.index - b.start))).bind fun window =>
        (gather R (slots u.cap b.start (b.index - b.start))).bind fun rwindow =>
        (nonterminalReturns c h nc window rwindow).bind fun ret =>
        (gather b.S (slots u.cap b.start nc)).bind fun states =>
        (gather T (slots u.cap b.start nc)).map fun terminal =>
          { b with T := T, R := R, out := b.out ++ records states terminal (ret.map some)
                   start := b.start + nc }

/-- One call into the model. -/
inductive Op (σ : Type) where
  | act (s : σ)
  | observe (h : Nat) (batch : List (Nat × Rat))

def Buf.step {σ : Type} (c : Config σ) (u : Setup) (b : Buf σ) : Op σ → Option (Buf σ)
  | .act s => b.act u s
  | .observe h batch => b.observe c u h batch

/-- A history of calls. -/
def Buf.run {σ : Type} (c : Config σ) (u : Setup) (b : Buf σ) (ops : List (Op σ)) : Option (Buf σ) :=
  ops.foldlM (fun b o => b.step c u o) b

end Verif.Returns
