/-!
# Model of the act-observe interface and the trace recorder

Models `tensorforce/agents/recorder.py`, `Recorder.initialize` (96-132), `reset` (137-149), `act` (154-327), `observe`
(329-489), and `tensorforce/agents/agent.py`, `Agent.reset` (332-352), `fn_act` (420-500), `observe` (502-568), together with
the counters of `tensorforce/core/models/model.py` (timesteps, line 641; episodes, line 767).

Simplifications: states and actions are values of arbitrary types (one state and one action component); the result of the
policy is part of the call (`none`: an exception inside `fn_act`); `Model.observe` does not fail; `parallel` contains natural
numbers (no negative indices); trace files are a list sorted by number, and a trace directory contains nothing else; terminal
codes are natural numbers. An independent `act` touches none of this state and is left out.
-/

namespace Verif.Agent

/-- Recorder specification. -/
structure Rec where
  start : Nat
  frequency : Nat
  maxTraces : Option Nat
  deriving DecidableEq, Repr

structure Config where
  parallel : Nat
  limit : Option Nat
  /-- `config.buffer_observe`; `none` is `'episode'`. -/
  buffer : Option Nat
  recorder : Option Rec
  deriving DecidableEq, Repr

/-- A trace file `trace-{name}.npz`. -/
structure Trace (X A R : Type) where
  name : Nat
  states : List X
  actions : List A
  terminal : List Nat
  reward : List R
  deriving DecidableEq, Repr

/-- Entry `p` replaced. -/
def upd {β : Type} (f : Nat → β) (p : Nat) (x : β) : Nat → β := fun q => if q = p then x else f q

structure State (X A R : Type) where
  completed : Nat → Bool
  counter : Nat → Nat
  -- recorder
  numEpisodes : Nat
  bufS : Nat → List X
  bufA : Nat → List A
  bufT : Nat → List Nat
  bufR : Nat → List R
  recS : List (List X)
  recA : List (List A)
  recT : List (List Nat)
  recR : List (List R)
  files : List (Trace X A R)
  /-- All traces written so far (bookkeeping for the statements). -/
  written : List (Trace X A R)
  -- agent
  termBuf : Nat → List Nat
  rewBuf : Nat → List R
  /-- The batches passed to `Model.observe` (bookkeeping for the statements). -/
  flushed : Nat → List (List Nat × List R)
  timesteps : Nat
  episodes : Nat

def State.init {X A R : Type} : State X A R :=
  { completed := fun _ => true, counter := fun _ => 0, numEpisodes := 0, bufS := fun _ => [], bufA := fun _ => [],
    bufT := fun _ => [], bufR := fun _ => [], recS := [], recA := [], recT := [], recR := [], files := [], written := [],
    termBuf := fun _ => [], rewBuf := fun _ => [], flushed := fun _ => [], timesteps := 0, episodes := 0 }

/-- Calls of the interface. -/
inductive Op (X A R : Type) where
  | act (parallel : List Nat) (states : List X) (result : Option (List A))
  | observe (parallel : List Nat) (terminal : List Nat) (reward : List R)
  | reset
  deriving DecidableEq, Repr

/-- Files removed before a trace is written, recorder.py lines 470-474: `files[:-max_traces + 1]`. -/
def prune {α : Type} (maxTraces : Option Nat) (files : List α) : List α :=
  match maxTraces with
  | none => files
  | some 0 => files.drop 1
  | some 1 => files
  | some (m + 2) => if files.length > m + 1 then files.drop (files.length - (m + 1)) else files

/-- The sorted directory after writing a file. -/
def insertFile {X A R : Type} (t : Trace X A R) : List (Trace X A R) → List (Trace X A R)
  | [] => [t]
  | u :: us => if t.name < u.name then t :: u :: us else if t.name = u.name then t :: us else u :: insertFile t us

/-- recorder.py lines 454-484: write the recorded episodes every `frequency` episodes. -/
def writeTrace {X A R : Type} (rc : Rec) (st : State X A R) : State X A R :=
  if (st.numEpisodes - rc.start) % rc.frequency ≠ 0 then st
  else
    let t : Trace X A R := { name := st.numEpisodes - 1, states := st.recS.flatten, actions := st.recA.flatten,
                             terminal := st.recT.flatten, reward := st.recR.flatten }
    { st with files := insertFile t (prune rc.maxTraces st.files), written := st.written ++ [t],
              recS := [], recA := [], recT := [], recR := [] }

/-- recorder.py lines 434-452: an episode moves from the buffers to the recorded values. -/
def closeEpisode {X A R : Type} (p : Nat) (st : State X A R) : State X A R :=
  { st with recS := st.recS ++ [st.bufS p], bufS := upd st.bufS p [],
            recA := st.recA ++ [st.bufA p], bufA := upd st.bufA p [],
            recT := st.recT ++ [st.bufT p], bufT := upd st.bufT p [],
            recR := st.recR ++ [st.bufR p], bufR := upd st.bufR p [] }

/-- recorder.py lines 421-484; `false`: `np.stack` of an empty list raises. -/
def recordLoop {X A R : Type} (rc : Rec) (st : State X A R) : List (Nat × Nat × R) → State X A R × Bool
  | [] => (st, true)
  | (p, t, r) :: l =>
    let st := { st with bufT := upd st.bufT p (st.bufT p ++ [t]), bufR := upd st.bufR p (st.bufR p ++ [r]) }
    if t = 0 then recordLoop rc st l
    else
      let st := { st with numEpisodes := st.numEpisodes + 1 }
      if (st.bufS p).isEmpty || (st.bufA p).isEmpty then (st, false)
      else recordLoop rc (writeTrace rc (closeEpisode p st)) l

/-- recorder.py lines 412-484. -/
def record {X A R : Type} (rec : Option Rec) (st : State X A R) (l : List (Nat × Nat × R)) : State X A R × Bool :=
  match rec with
  | none => (st, true)
  | some rc =>
    if st.numEpisodes < rc.start then
      ({ st with numEpisodes := st.numEpisodes + l.countP (fun x => decide (x.2.1 > 0)) }, true)
    else recordLoop rc st l

/-- agent.py lines 533-538: keep buffering? -/
def keep (buffer : Option Nat) (t len : Nat) : Bool :=
  t == 0 && (match buffer with | none => true | some k => decide (len < k))

/-- agent.py lines 529-563 for one interaction. -/
def bufferOne {X A R : Type} (buffer : Option Nat) (st : State X A R) (p t : Nat) (r : R) : State X A R :=
  let ts := st.termBuf p ++ [t]
  let rs := st.rewBuf p ++ [r]
  if keep buffer t ts.length then { st with termBuf := upd st.termBuf p ts, rewBuf := upd st.rewBuf p rs }
  else
    { st with termBuf := upd st.termBuf p [], rewBuf := upd st.rewBuf p [],
              flushed := upd st.flushed p (st.flushed p ++ [(ts, rs)]),
              episodes := st.episodes + if ts.getLastD 0 > 0 then 1 else 0 }

def bufferLoop {X A R : Type} (buffer : Option Nat) (st : State X A R) : List (Nat × Nat × R) → State X A R
  | [] => st
  | (p, t, r) :: l => bufferLoop buffer (bufferOne buffer st p t r) l

/-- Recording of a call argument, recorder.py lines 253-258 and 279-284. -/
def appendEach {β : Type} (f : Nat → List β) : List (Nat × β) → Nat → List β
  | [] => f
  | (p, x) :: l => appendEach (upd f p (f p ++ [x])) l

/-- Does the recorder take down this step? -/
def recording {X A R : Type} (cfg : Config) (st : State X A R) : Bool :=
  match cfg.recorder with
  | none => false
  | some rc => decide (st.numEpisodes ≥ rc.start)

/-- recorder.py line 410: `np.where(terminal > 0, 0, counter)`. -/
def restart (c : Nat → Nat) : List (Nat × Nat) → Nat → Nat
  | [] => c
  | (p, t) :: l => restart (if t > 0 then upd c p 0 else c) l

/-- The check of the episode length, recorder.py lines 406-409. -/
def tooLong (limit : Option Nat) (c : Nat → Nat) (l : List (Nat × Nat)) : Bool :=
  match limit with
  | none => false
  | some m => l.any fun x => x.2 == 0 && decide (c x.1 > m)

/-- One call; the second component says whether it returned normally. -/
def State.step {X A R : Type} (cfg : Config) (st : State X A R) : Op X A R → State X A R × Bool
  | .act ps xs res =>
    if xs.length ≠ ps.length ∨ ps.any (fun p => decide (cfg.parallel ≤ p)) then (st, false)
    else if ps.any (fun p => !st.completed p) then (st, false)                   -- lines 245-251
    else
      let st := { st with completed := fun p => st.completed p && !ps.contains p }
      let st := if recording cfg st then { st with bufS := appendEach st.bufS (ps.zip xs) } else st
      match res with
      | none => (st, false)
      | some as =>
        let st := { st with timesteps := st.timesteps + ps.length }
        (if recording cfg st then { st with bufA := appendEach st.bufA (ps.zip as) } else st, true)
  | .observe ps ts rs =>
    if ps = [] ∨ rs.length ≠ ps.length ∨ ts.length ≠ ps.length ∨ ps.any (fun p => decide (cfg.parallel ≤ p)) then
      (st, false)
    else if ps.any (fun p => st.completed p) then (st, false)                     -- lines 400-402
    else
      let st := { st with completed := fun p => st.completed p || ps.contains p,
                          counter := fun p => if ps.contains p then st.counter p + 1 else st.counter p }
      if tooLong cfg.limit st.counter (ps.zip ts) then (st, false)
      else
        let st := { st with counter := restart st.counter (ps.zip ts) }
        let l := ps.zip (ts.zip rs)
        match record cfg.recorder st l with
        | (st, false) => (st, false)
        | (st, true) => (bufferLoop cfg.buffer st l, true)
  | .reset =>
    ({ st with completed := fun _ => true, counter := fun _ => 0, bufS := fun _ => [], bufA := fun _ => [],
               bufT := fun _ => [], bufR := fun _ => [], recS := [], recA := [], recT := [], recR := [],
               termBuf := fun _ => [], rewBuf := fun _ => [] }, true)

/-- A history of calls: final state and outcomes. -/
def State.run {X A R : Type} (cfg : Config) (st : State X A R) : List (Op X A R) → State X A R × List Bool
  | [] => (st, [])
  | o :: ops =>
    let r := st.step cfg o
    let q := State.run cfg r.1 ops
    (q.1, r.2 :: q.2)

end Verif.Agent
