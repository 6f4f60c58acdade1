import Mathlib.Algebra.Order.Field.Basic

/-!
# Model of the values of the pooling layers

Models `tensorforce/core/layers/pooling.py`: `Pooling` (36-43, 62-84), `Flatten` (97-106), `Pool1d` (128-152, 171-186) and `Pool2d` (208-236, 260-271).
The shapes announced are those of C43.

Simplifications:
* Numbers are those of an ordered field. `none` stands for the results of TensorFlow which are no such numbers: the infinite maximum and the undefined
  mean of nothing.
* One example of a batch at a time, given by the sizes of its axes and the entry at each index. Local pooling transforms each channel on its own, so
  that the input there is one channel.
* Windows and strides are not negative.
* `tf.nn.avg_pool` and `tf.nn.max_pool` as documented: with padding "SAME" there are as many outputs as the size divided by the stride, rounded up, half
  of the missing entries, rounded down, are before the first one, and missing entries are ignored; with padding "VALID" all entries exist (and there is
  no output if the window is larger than the input).
* `Pool1d` is the case of one row with the window and the stride 1 for rows (lines 136, 141, 172, 184).
-/

namespace Verif.Pool

inductive Err where
  /-- `TensorforceError` -/
  | tensorforce
  /-- Exception of TensorFlow. -/
  | tensorflow
  | type_
  | index
  deriving Repr, DecidableEq

/-- The argument `reduction` of `Pooling`. -/
inductive Reduction where
  | concat
  | max
  | mean
  | product
  | sum
  deriving Repr, DecidableEq

section
variable {K : Type} [Field K] [LinearOrder K]

/-- Sum. -/
def total : List K → K
  | [] => 0
  | x :: l => x + total l

/-- Product. -/
def times : List K → K
  | [] => 1
  | x :: l => x * times l

/-- Maximum. -/
def highest : List K → Option K
  | [] => none
  | [x] => some x
  | x :: y :: l => (highest (y :: l)).map (Max.max x)

/-- Mean. -/
def average (l : List K) : Option K := if l = [] then none else some (total l / (l.length : K))

/-- All entries, if they are numbers. -/
def numbers : List (Option K) → Option (List K)
  | [] => some []
  | none :: _ => none
  | some x :: l => (numbers l).map (x :: ·)

/-- `tf.reduce_max`, `tf.reduce_mean`, `tf.reduce_prod`, `tf.reduce_sum` of the entries along an axis. -/
def reduce (r : Reduction) (l : List (Option K)) : Option K :=
  match numbers l with
  | none => none
  | some xs =>
    match r with
    | .concat => none
    | .max => highest xs
    | .mean => average xs
    | .product => some (times xs)
    | .sum => some (total xs)

/-- Lines 68, 73, 78, 83: reduction of the first axis. -/
def along (r : Reduction) (n : Nat) (x : List Nat → Option K) : List Nat → Option K :=
  fun rest => reduce r ((List.range n).map (fun i => x (i :: rest)))

/-- The loops of lines 67-84, for the axes but the last. -/
def global (r : Reduction) : List Nat → (List Nat → Option K) → Nat → Option K
  | [], x => fun c => x [c]
  | n :: axes, x => global r axes (along r n x)

/-- Indices in the order of entries, line 64. -/
def indices : List Nat → List (List Nat)
  | [] => [[]]
  | n :: axes => (List.range n).flatMap (fun i => (indices axes).map (i :: ·))

/-- `Pooling.apply`, lines 62-84: `size` is the size of the last axis. -/
def pooling (r : Reduction) (axes : List Nat) (size : Nat) (x : List Nat → Option K) : List (Option K) :=
  match r with
  | .concat => (indices (axes ++ [size])).map x
  | r => (List.range size).map (global r axes x)

/-- `Flatten.apply`, lines 101-106. -/
def flatten (shape : List Nat) (x : List Nat → Option K) : List (Option K) :=
  if shape = [] then [x []] else (indices shape).map x

/-! ### Local pooling -/

/-- The argument `reduction` of `Pool1d` and `Pool2d`. -/
inductive Local where
  | average
  | max
  | unknown
  deriving Repr, DecidableEq

inductive Padding where
  | same
  | valid
  deriving Repr, DecidableEq

/-- The arguments `window` and `stride`. -/
inductive Arg where
  | one (n : Nat)
  | many (l : List Nat)
  deriving Repr, DecidableEq

/-- Lines 215-220. -/
def windowArg : Arg → Except Err (Nat × Nat)
  | .one n => .ok (n, n)
  | .many [m, n] => .ok (m, n)
  | .many _ => .error .tensorforce

/-- Lines 222-227: the length of `window` is compared. -/
def strideArg (window : Arg) : Arg → Except Err (Nat × Nat)
  | .one n => .ok (n, n)
  | .many l =>
    match window with
    | .one _ => .error .type_
    | .many w =>
      if w.length = 2 then
        match l with
        | m :: n :: _ => .ok (m, n)
        | _ => .error .index
      else .error .tensorforce

/-- Size, window and stride of an axis. -/
structure Axis where
  size : Nat
  window : Nat
  stride : Nat
  deriving Repr, DecidableEq

/-- Number of outputs along an axis. -/
def Axis.outputs (p : Padding) (a : Axis) : Nat :=
  match p with
  | .same => (a.size + (a.stride - 1)) / a.stride
  | .valid => (a.size + 1 - a.window + (a.stride - 1)) / a.stride

/-- Number of missing entries before the first one. -/
def Axis.before (p : Padding) (a : Axis) : Nat :=
  match p with
  | .same => ((a.outputs p - 1) * a.stride + a.window - a.size) / 2
  | .valid => 0

/-- Entries in the window of output `i`. -/
def Axis.entries (p : Padding) (a : Axis) (i : Nat) : List Nat :=
  (List.range a.size).filter (fun j => decide (i * a.stride ≤ j + a.before p) && decide (j + a.before p < i * a.stride + a.window))

/-- Reduction of a window. -/
def window (r : Local) (l : List K) : Option K :=
  match r with
  | .average => average l
  | .max => highest l
  | .unknown => none

/-- `tf.nn.avg_pool` and `tf.nn.max_pool`, lines 174-182, 261-269. -/
def pool (r : Local) (p : Padding) (rows cols : Axis) (x : Nat → Nat → K) : Except Err (List (List (Option K))) :=
  if rows.window = 0 ∨ rows.stride = 0 ∨ cols.window = 0 ∨ cols.stride = 0 then .error .tensorflow
  else .ok ((List.range (rows.outputs p)).map (fun i => (List.range (cols.outputs p)).map (fun j =>
    window r ((rows.entries p i).flatMap (fun m => (cols.entries p j).map (fun n => x m n))))))

/-- `Pool2d` applied to a channel. -/
def pool2d (r : Local) (w s : Arg) (p : Padding) (height width : Nat) (x : Nat → Nat → K) : Except Err (List (List (Option K))) :=
  if r = .unknown then .error .tensorforce
  else
    match windowArg w with
    | .error e => .error e
    | .ok w' =>
      match strideArg w s with
      | .error e => .error e
      | .ok s' => pool r p ⟨height, w'.1, s'.1⟩ ⟨width, w'.2, s'.2⟩ x

/-- `Pool1d` applied to a channel. -/
def pool1d (r : Local) (w s : Arg) (p : Padding) (length : Nat) (x : Nat → K) : Except Err (List (Option K)) :=
  if r = .unknown then .error .tensorforce
  else
    match w with
    | .many _ => .error .tensorforce
    | .one w' =>
      match s with
      | .many _ => .error .tensorforce
      | .one s' =>
        match pool r p ⟨1, 1, 1⟩ ⟨length, w', s'⟩ (fun _ n => x n) with
        | .error e => .error e
        | .ok out => .ok (out.headD [])

end

end Verif.Pool
