/-!
# Model of the circular-buffer memories

Models `tensorforce/core/memories/queue.py`, `recent.py`, `replay.py`.

Simplifications (all definitions of this file):
* all value buffers except `terminal` are updated with the same indices, so they are one buffer `vals`
  of records `α`; the `terminal` buffer is kept separate because it is read back;
* TensorFlow int64 variables are unbounded `Nat`/`Int`;
* the configuration `create_tf_assertions=True` (the default, `config.py` line 25) is modelled.
-/

namespace Verif.Memory

/-- State of a `Queue` memory: `queue.py` lines 61-98 (`initialize`).
`bi` is `buffer_index` (never reduced modulo the capacity, line 289), `ti` is `terminal_indices`
(length `capacity + 1`), `ec` is `episode_count` (may become `-1`). -/
structure Queue (α : Type) where
  cap : Nat
  vals : List α
  term : List Nat
  bi : Nat
  ti : List Nat
  ec : Int
  deriving Repr, DecidableEq

/-- `queue.py` lines 61-98: zero-initialised buffers, the `terminal` buffer has a 1 at the last slot,
which is also the only entry of `terminal_indices`; `z` is the zero record. -/
def Queue.init {α : Type} (cap : Nat) (z : α) : Queue α :=
  { cap := cap
    vals := List.replicate cap z
    term := List.replicate (cap - 1) 0 ++ [1]
    bi := 0
    ti := (cap - 1) :: List.replicate cap 0
    ec := 0 }

/-- `tf.gather` along axis 0 (CPU semantics: out-of-range index is an error). -/
def gather {β : Type} (buf : List β) (idx : List Nat) : Option (List β) :=
  idx.mapM (fun i => buf[i]?)

/-- `tf.tensor_scatter_nd_update` along axis 0 (CPU semantics: out-of-range index is an error). -/
def scatter {β : Type} (buf : List β) : List (Nat × β) → Option (List β)
  | [] => some buf
  | (i, x) :: r => if i < buf.length then scatter (buf.set i x) r else none

/-- `tf.math.count_nonzero`. -/
def countNonzero (l : List Nat) : Nat := (l.filter (fun t => decide (t ≠ 0))).length

/-- `tf.range(start, start + n)`. -/
def rangeFrom (start n : Nat) : List Nat := (List.range n).map (start + ·)

/-- `tf.math.mod(tf.range(start, start + n), capacity)`, e.g. `queue.py` lines 232-235, 280-281. -/
def slots (cap start n : Nat) : List Nat := (rangeFrom start n).map (· % cap)

/-- `tf.math.mod(buffer_index - 1, capacity)`, `queue.py` lines 106, 169. -/
def Queue.lastIndex {α : Type} (q : Queue α) : Nat := (((q.bi : Int) - 1) % (q.cap : Int)).toNat

/-- `queue.py` lines 169-187 (`correct_terminal` in `enqueue`): remove the marker 3 of the last
observation. In TensorFlow this assignment precedes all assertions, so it also happens if `enqueue` fails. -/
def Queue.clearMarker {α : Type} (q : Queue α) : Queue α :=
  if q.term[q.lastIndex]? = some 3 then { q with term := q.term.set q.lastIndex 0 } else q

/-- `queue.py` lines 267-270: the last terminal of the batch is stored as 3 if it is 0. -/
def markLast (terminal : List Nat) : List Nat :=
  match terminal.getLast? with
  | none => []
  | some t => terminal.dropLast ++ [if t = 0 then 3 else t]

/-- `queue.py` lines 161-318 (`enqueue`); `xs` is the batch, one record and terminal code per timestep.
The error strings are the messages of the failing assertion (or of the failing TensorFlow kernel). -/
def Queue.enqueue {α : Type} (q0 : Queue α) (xs : List (α × Nat)) : Except String (Queue α) :=
  let terminal := xs.map Prod.snd
  let n := xs.length
  let q := q0.clearMarker
  -- lines 194-197
  if n > q.cap then .error "Memory does not have enough capacity." else
  -- lines 199-202
  if countNonzero terminal > 1 then .error "Timesteps contain more than one terminal." else
  -- lines 204-208 (`terminal[-1]` of an empty batch is an error)
  match terminal.getLast? with
  | none => .error "slice index -1 of dimension 0 out of bounds."
  | some tl =>
  if terminal.any (fun t => decide (0 < t)) ≠ decide (0 < tl) then
    .error "Terminal is not the last timestep." else
  -- lines 210-219
  match gather q.term (q.ti.take (q.ec + 1).toNat) with
  | none => .error "gather: index out of range"
  | some ts =>
  if ts.all (fun t => decide (0 < t)) ≠ true then .error "Memory consistency check." else
  -- lines 221-226
  if (countNonzero q.term : Int) ≠ q.ec + 1 then .error "Memory consistency check." else
  -- lines 229-239
  let overwritten := slots q.cap q.bi n
  match gather q.term overwritten with
  | none => .error "gather: index out of range"
  | some ot =>
  let numEpisodes := countNonzero ot
  -- lines 242-247
  let index := q.ec + 1
  if index < numEpisodes then .error "Memory episode overwriting check." else
  -- lines 250-256
  let updates := (q.ti.take index.toNat).drop numEpisodes
  match scatter q.ti ((List.range updates.length).zip updates) with
  | none => .error "scatter: index out of range"
  | some ti1 =>
  -- lines 263-265
  let ec1 := q.ec - numEpisodes
  -- lines 268-287
  match scatter q.term (overwritten.zip (markLast terminal)),
        scatter q.vals (overwritten.zip (xs.map Prod.fst)) with
  | some term2, some vals2 =>
    -- lines 289-291
    let bi2 := q.bi + n
    -- lines 294-311
    let numNew := countNonzero terminal
    let newTi := ((overwritten.zip terminal).filter (fun p => decide (0 < p.2))).map Prod.fst
    let start := (ec1 + 1).toNat
    match scatter ti1 ((rangeFrom start numNew).zip newTi) with
    | none => .error "scatter: index out of range"
    | some ti2 =>
      -- lines 314-318
      .ok { cap := q.cap, vals := vals2, term := term2, bi := bi2, ti := ti2, ec := ec1 + numNew }
  | _, _ => .error "scatter: index out of range"

/-- State of the memory after a call of `enqueue`, successful or not: a failing call has already
removed the marker of the last observation (`queue.py` lines 184-187, 190-191). -/
def Queue.afterEnqueue {α : Type} (q : Queue α) (xs : List (α × Nat)) : Queue α :=
  match q.enqueue xs with
  | .ok q' => q'
  | .error _ => q.clearMarker

/-- `queue.py` lines 100-159 (`reset`). -/
def Queue.reset {α : Type} (q : Queue α) : Except String (Queue α) :=
  let last := q.lastIndex
  match q.term[last]? with
  | none => .error "gather: index out of range"
  | some lt =>
  -- lines 108-137
  let corrected : Option (Queue α) :=
    if lt = 3 then
      match scatter q.term [(last, 2)], scatter q.ti [((q.ec + 1).toNat, last)] with
      | some term', some ti' => some { q with term := term', ti := ti', ec := q.ec + 1 }
      | _, _ => none
    else some q
  match corrected with
  | none => .error "scatter: index out of range"
  | some q' =>
  -- lines 140-157
  match gather q'.term (q'.ti.take (q'.ec + 1).toNat) with
  | none => .error "gather: index out of range"
  | some ts =>
  if ts.all (fun t => decide (0 < t)) ≠ true then .error "Memory consistency check." else
  if (countNonzero q'.term : Int) ≠ q'.ec + 1 then .error "Memory consistency check." else
  .ok q'

/-- `queue.py` lines 320-324 (`retrieve`), for all non-terminal values and the terminal value. -/
def Queue.retrieve {α : Type} (q : Queue α) (idx : List Nat) : Option (List α) := gather q.vals idx

/-- `queue.py` lines 320-324 for the `terminal` buffer. -/
def Queue.retrieveTerminal {α : Type} (q : Queue α) (idx : List Nat) : Option (List Nat) :=
  gather q.term idx

/-- `recent.py` lines 38-58 / `replay.py` lines 38-58: number of timesteps considered available. -/
def Queue.numTimesteps {α : Type} (q : Queue α) (past future : Nat) : Int :=
  max ((min q.bi q.cap : Nat) - ((past : Int) + future)) q.ec

/-- `recent.py` lines 37-59 (`Recent.retrieve_timesteps`). -/
def Queue.recentTimesteps {α : Type} (q : Queue α) (n past future : Nat) : Except String (List Nat) :=
  let num := q.numTimesteps past future
  if num < 1 then .error "assert_greater_equal" else
  let m := min (n : Int) num
  .ok ((List.range m.toNat).map (fun (k : Nat) =>
    (((q.bi : Int) - m + (k : Int) - (future : Int)) % (q.cap : Int)).toNat))

/-- `replay.py` lines 37-62 (`Replay.retrieve_timesteps`); `rnd` are the values drawn from
`tf.random.uniform(shape=(n,), maxval=num_timesteps)`; the model takes as many as needed. -/
def Queue.replayTimesteps {α : Type} (q : Queue α) (n past future : Nat) (rnd : Nat → Nat) :
    Except String (List Nat) :=
  let num := q.numTimesteps past future
  if num < 1 then .error "assert_greater_equal" else
  let m := min (n : Int) num
  .ok ((List.range m.toNat).map (fun k =>
    (((q.bi : Int) - 1 - (rnd k : Int) - (future : Int)) % (q.cap : Int)).toNat))

/-- The episode interval computation shared by `recent.py` lines 73-83 and `replay.py` lines 82-90:
range from the slot after terminal entry `a` of `terminal_indices` to the slot of entry `b`, modulo
capacity. -/
def Queue.episodeRange {α : Type} (q : Queue α) (a b : Nat) : Option (List Nat) :=
  match q.ti[a]?, q.ti[b]? with
  | some s, some l =>
    let start := s + 1
    let limit := l + 1
    let limit := limit + (if limit < start then q.cap else 0)
    some (slots q.cap start (limit - start))
  | _, _ => none

/-- `recent.py` lines 61-85 (`Recent.retrieve_episodes`). -/
def Queue.recentEpisodes {α : Type} (q : Queue α) (n : Nat) : Except String (List Nat) :=
  if q.ec < 1 then .error "assert_greater_equal" else
  let m := min (n : Int) q.ec
  match q.episodeRange (q.ec - m).toNat q.ec.toNat with
  | none => .error "slice index out of bounds"
  | some l => .ok l

/-- `replay.py` lines 64-92 (`Replay.retrieve_episodes`); `rnd` are the values drawn from
`tf.random.uniform(shape=(n,), maxval=episode_count)`. -/
def Queue.replayEpisodes {α : Type} (q : Queue α) (n : Nat) (rnd : Nat → Nat) : Except String (List Nat) :=
  if q.ec < 1 then .error "assert_greater_equal" else
  let m := min (n : Int) q.ec
  match (List.range m.toNat).mapM (fun k => q.episodeRange (rnd k) (rnd k + 1)) with
  | none => .error "gather: index out of range"
  | some ls => .ok ls.flatten

/-- One row of the loop state of `predecessors`/`successors` (`queue.py` lines 335-353, 402-420):
`lengths`, indices and mask. -/
structure Row where
  len : Nat
  idx : List Nat
  mask : List Bool
  deriving Repr, DecidableEq

/-- `queue.py` lines 355-357, 422-424: initial loop state for one index. -/
def Row.start (cap i : Nat) : Row := { len := 1, idx := [i % cap], mask := [true] }

/-- `queue.py` lines 335-353: loop body of `predecessors` for one row; `idx`/`mask` are never empty. -/
def Queue.predBody {α : Type} (q : Queue α) (r : Row) : Option Row :=
  match r.idx.head?, r.mask.head? with
  | some i, some m =>
    let prev := (((i : Int) - 1) % (q.cap : Int)).toNat
    match q.term[prev]? with
    | none => none
    | some t =>
      let ok := !decide (0 < t) && m
      some { len := r.len + (if ok then 1 else 0), idx := prev :: r.idx, mask := ok :: r.mask }
  | _, _ => none

/-- `queue.py` lines 402-420: loop body of `successors` for one row. -/
def Queue.succBody {α : Type} (q : Queue α) (r : Row) : Option Row :=
  match r.idx.getLast?, r.mask.getLast? with
  | some i, some m =>
    match q.term[i]? with
    | none => none
    | some t =>
      let ok := !decide (0 < t) && m
      some { len := r.len + (if ok then 1 else 0), idx := r.idx ++ [(i + 1) % q.cap], mask := r.mask ++ [ok] }
  | _, _ => none

/-- `tf.while_loop(cond=always_true, maximum_iterations=horizon)`. -/
def iterBody (body : Row → Option Row) : Nat → Row → Option Row
  | 0, r => some r
  | k + 1, r => (body r).bind (iterBody body k)

/-- `tf.boolean_mask`. -/
def boolMask {β : Type} (l : List β) (m : List Bool) : List β :=
  ((l.zip m).filter (fun p => p.2)).map Prod.fst

/-- `tf.math.cumsum(exclusive=True)` from a start value. -/
def cumsumExcl : Nat → List Nat → List Nat
  | _, [] => []
  | a, x :: r => a :: cumsumExcl (a + x) r

/-- Result of `predecessors`/`successors`: `starts`, `lengths`, the flat index list, and the
indices at which the initial (resp. final) values are read. -/
structure Windows where
  starts : List Nat
  lengths : List Nat
  flat : List Nat
  marks : List Nat
  deriving Repr, DecidableEq

/-- `queue.py` lines 326-391 (`predecessors`), up to the final gathers of the values. The assertion of
lines 370-374 compares a floor-mod result with 0 and can never fail; it is omitted. -/
def Queue.predecessors {α : Type} (q : Queue α) (indices : List Nat) (horizon : Nat) : Option Windows :=
  match indices.mapM (fun i => iterBody q.predBody horizon (Row.start q.cap i)) with
  | none => none
  | some rows =>
    let lengths := rows.map Row.len
    let flat := boolMask (rows.map Row.idx).flatten (rows.map Row.mask).flatten
    let starts := cumsumExcl 0 lengths
    match gather flat starts with
    | none => none
    | some initial => some { starts := starts, lengths := lengths, flat := flat, marks := initial }

/-- `queue.py` lines 393-460 (`successors`), up to the final gathers of the values. The assertion of
lines 437-441 compares a floor-mod result with 0 and can never fail; it is omitted. -/
def Queue.successors {α : Type} (q : Queue α) (indices : List Nat) (horizon : Nat) : Option Windows :=
  match indices.mapM (fun i => iterBody q.succBody horizon (Row.start q.cap i)) with
  | none => none
  | some rows =>
    let lengths := rows.map Row.len
    let flat := boolMask (rows.map Row.idx).flatten (rows.map Row.mask).flatten
    let starts := cumsumExcl 0 lengths
    let ends := (cumsumExcl 0 lengths).zipWith (fun s l => s + l - 1) lengths
    match gather flat ends with
    | none => none
    | some final => some { starts := starts, lengths := lengths, flat := flat, marks := final }

end Verif.Memory
