/-!
# Model of the temporal layers

Models `TemporalLayer.apply` and `iterative_body` (`tensorforce/core/layers/layer.py` 631-747).

Simplifications: the batched cell `iterative_apply` works on each entry of the batch separately and is given as a function; the internals of
an entry are one value. Horizons are natural numbers, so that `tf.maximum(x - y, 0)` is `x - y`. `tf.gather` fails for an index outside the
tensor (it does on CPU). The maximum over an empty batch is zero, which like the smallest integer means no iterations. With constant
horizon zero the cell fails unless there is one input for every entry. Tensor shapes other than the batch axis are left out; so is the inherited
`apply` called at the end (705, 707).
-/

namespace Verif.Layer

inductive TError where
  | gather     -- index outside of the tensor
  | assertion  -- 696-701
  | unbound    -- `final_indices` without value
  | signature  -- `assert self.temporal_processing == 'iterative'` for a cumulative layer
  | batch      -- cell applied to inputs and internals of different number
deriving DecidableEq

/-- `iterative_apply`. -/
abbrev Cell (X S O : Type) := X → S → O × S

/-- One row of `horizons`: first index and length of a window. -/
structure Window where
  start : Nat
  len : Nat
deriving DecidableEq

/-- `starts` and `lengths`, 641-644. -/
def trim (h : Nat) (w : Window) : Window :=
  let horizon := h + 1
  ⟨w.start + (w.len - horizon), w.len - (w.len - horizon)⟩

def maxLen : List Window → Nat
  | [] => 0
  | w :: ws => max w.len (maxLen ws)

/-- `horizon`, 645; `ws` are the trimmed windows. -/
def iterations (h : Nat) (ws : List Window) : Nat := min (h + 1) (maxLen ws)

/-- The loop variables of one entry of the batch. -/
structure Row (S O : Type) where
  idx : Nat
  remaining : Nat
  out : O
  state : S
deriving DecidableEq

section
variable {X S O : Type}

/-- `iterative_body`, 709-747. -/
def body (cell : Cell X S O) (xs : List X) (r : Row S O) : Except TError (Row S O) :=
  match xs[r.idx]? with
  | none => .error .gather
  | some x =>
    let next := cell x r.state
    let isFinished := r.remaining = 0
    let state := if isFinished then r.state else next.2
    let remaining := r.remaining - (if isFinished then 0 else 1)
    let idx := r.idx + (if remaining = 0 then 0 else 1)
    .ok ⟨idx, remaining, next.1, state⟩

/-- `f` on every entry of the batch. -/
def each {α β : Type} (f : α → Except TError β) : List α → Except TError (List β)
  | [] => .ok []
  | a :: as =>
    match f a with
    | .error e => .error e
    | .ok b =>
      match each f as with
      | .error e => .error e
      | .ok bs => .ok (b :: bs)

/-- `tf.while_loop` with the given number of iterations. -/
def loop {α : Type} (step : α → Except TError α) : Nat → List α → Except TError (List α)
  | 0, rs => .ok rs
  | n + 1, rs =>
    match each step rs with
    | .error e => .error e
    | .ok rs => loop step n rs

/-- `tf.math.cumsum`. -/
def cumsum (acc : Nat) : List Nat → List Nat
  | [] => []
  | l :: ls => (acc + l) :: cumsum (acc + l) ls

/-- 694-701, with final indices and remaining counts; `x = y - 1` for integers is `x + 1 = y`. -/
def check (ws : List Window) (idx remaining : List Nat) : Prop :=
  idx.map (· + 1) = cumsum 0 (ws.map Window.len) ∧ remaining.sum = 0

instance (ws : List Window) (idx remaining : List Nat) : Decidable (check ws idx remaining) := inferInstanceAs (Decidable (_ ∧ _))

/-- The parameters of a layer: the current horizon, whether it is the constant zero, and `config.create_tf_assertions`. -/
structure TConfig where
  h : Nat
  constZero : Bool
  assertions : Bool
deriving DecidableEq

/-- The initial loop variables, 643-644, 683-689. -/
def start (h : Nat) (zero : O) (horizons : List Window) (internals : List S) : List (Row S O) :=
  List.zipWith (fun w s => ⟨(trim h w).start, (trim h w).len, zero, s⟩) horizons internals

/-- `apply` for a layer with iterative processing. -/
def applyIterative (c : TConfig) (cell : Cell X S O) (zero : O) (xs : List X) (horizons : List Window) (internals : List S) :
    Except TError (List O × List S) :=
  if c.constZero then
    if xs.length = internals.length then
      if c.assertions then .error .unbound
      else .ok (List.zipWith (fun x s => (cell x s).1) xs internals, internals)
    else if c.assertions then .error .unbound
    else .error .batch
  else
    let ws := horizons.map (trim c.h)
    match loop (body cell xs) (iterations c.h ws) (start c.h zero horizons internals) with
    | .error e => .error e
    | .ok rs =>
      if c.assertions ∧ ¬ check ws (rs.map Row.idx) (rs.map Row.remaining) then .error .assertion
      else .ok (rs.map Row.out, rs.map Row.state)

/-- The loop body for cumulative processing, 653-661; `out` collects the inputs. -/
def gatherBody (xs : List X) (r : Row Unit (List X)) : Except TError (Row Unit (List X)) :=
  match xs[r.idx]? with
  | none => .error .gather
  | some x =>
    let remaining := r.remaining - (if r.remaining = 0 then 0 else 1)
    let idx := r.idx + (if remaining = 0 then 0 else 1)
    .ok ⟨idx, remaining, r.out ++ [x], ()⟩

/-- `apply` for a layer with cumulative processing; `cumulative` is `cumulative_apply` for one entry, given the collected inputs and the
number of valid ones. -/
def applyCumulative (c : TConfig) (cumulative : List X → Nat → O) (xs : List X) (horizons : List Window) : Except TError (List O) :=
  if c.constZero then .error .signature
  else
    let ws := horizons.map (trim c.h)
    match loop (gatherBody xs) (iterations c.h ws) (ws.map fun w => ⟨w.start, w.len, [], ()⟩) with
    | .error e => .error e
    | .ok rs =>
      if c.assertions ∧ ¬ check ws (rs.map Row.idx) (rs.map Row.remaining) then .error .assertion
      else .ok (List.zipWith (fun r w => cumulative r.out w.len) rs ws)

end

end Verif.Layer
