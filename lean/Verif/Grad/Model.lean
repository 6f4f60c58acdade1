import Mathlib.Algebra.Order.Field.Basic

/-!
# Model of clipped gradients and updates, and of the natural gradient step

Models `tensorforce/core/optimizers/tf_optimizer.py` (`step`, 147-195), `clipping_step.py` (`step`, 57-88) and `natural_gradient.py`
(`step`, 70-198), with `tf.clip_by_global_norm`, `tf.clip_by_norm` and `tf.clip_by_value` as documented and implemented by TensorFlow.

Simplifications:
* Numbers are those of an ordered field, with a function `root` for the square root, so that nothing is rounded. Infinite gradients and NaN are
  left out, except that a division 0 / 0 or a product of 0 and infinity is `none`.
* Tensors are flat lists. Gradients, the Fisher matrix product and the solution of the conjugate gradient solver are given (see C37 for the
  solver); what a Keras optimizer makes of the gradients is not modelled, only which gradients it is given for which variables.
* Control dependencies, summaries and assertions on finite values are left out.
-/

namespace Verif.Grad

variable {K : Type} [Field K] [LinearOrder K]

/-- `tf.math.reduce_sum` of the squares. -/
def squares : List K → K
  | [] => 0
  | x :: l => x * x + squares l

/-- `tf.linalg.global_norm`, before the square root. -/
def squaresAll : List (List K) → K
  | [] => 0
  | t :: l => squares t + squaresAll l

/-- Factor of `tf.clip_by_global_norm`: `clip_norm * min(1 / norm, 1 / clip_norm)`, where 1 / 0 is infinite. -/
def globalFactor (norm clip : K) : Option K :=
  if norm = 0 then (if clip = 0 then none else some (clip * (1 / clip)))
  else if clip = 0 then some (clip * (1 / norm))
  else some (clip * min (1 / norm) (1 / clip))

/-- All tensors times a factor. -/
def scaleAll (s : K) (l : List (List K)) : List (List K) := l.map (fun t => t.map (fun x => x * s))

/-- `tf.clip_by_global_norm` -/
def clipGlobal (root : K → K) (clip : K) (l : List (List K)) : Option (List (List K)) :=
  match globalFactor (root (squaresAll l)) clip with
  | none => none
  | some s => some (scaleAll s l)

/-- `tf.clip_by_norm`: `t * clip_norm / max(norm, clip_norm)`, with norm 0 if the sum of squares is. -/
def clipNorm (root : K → K) (clip : K) (t : List K) : Option (List K) :=
  let norm := if 0 < squares t then root (squares t) else squares t
  if max norm clip = 0 then none else some (t.map (fun x => x * clip / max norm clip))

/-- `tf.clip_by_value` with `-threshold` and `threshold`. -/
def clipValue (clip : K) (t : List K) : List K := t.map (fun x => max (min x clip) (-clip))

/-! ## tf_optimizer.py -/

/-- Variables without gradient are left out, lines 163-169. -/
def paired {ι : Type} : List (Option (List K)) → List ι → List (List K × ι)
  | [], _ => []
  | _ :: _, [] => []
  | none :: gs, _ :: vs => paired gs vs
  | some g :: gs, v :: vs => (g, v) :: paired gs vs

inductive Err where
  /-- `assert len(gradients) > 0` -/
  | assertion
  /-- The result is NaN. -/
  | nan
  deriving Repr, DecidableEq

/-- The argument of `apply_gradients`, lines 162-190. -/
def gradients {ι : Type} (root : K → K) (clip : Option K) (gs : List (Option (List K))) (vs : List ι) : Except Err (List (List K × ι)) :=
  let pairs := paired gs vs
  if pairs = [] then .error .assertion
  else
    match clip with
    | none => .ok pairs
    | some c =>
      match clipGlobal root c (pairs.map (·.1)) with
      | none => .error .nan
      | some l => .ok (l.zip (pairs.map (·.2)))

/-! ## clipping_step.py -/

inductive Mode where
  | globalNorm
  | norm
  | value
  deriving Repr, DecidableEq

/-- All results, if there are. -/
def collect {α : Type} : List (Option α) → Option (List α)
  | [] => some []
  | none :: _ => none
  | some x :: l =>
    match collect l with
    | none => none
    | some r => some (x :: r)

/-- The clipped deltas, lines 60-76. -/
def clipDeltas (root : K → K) (mode : Mode) (threshold : K) (deltas : List (List K)) : Option (List (List K)) :=
  match mode with
  | .globalNorm => clipGlobal root threshold deltas
  | .norm => collect (deltas.map (clipNorm root threshold))
  | .value => some (deltas.map (clipValue threshold))

/-- `variable.assign_add(clipped_delta - delta)`, lines 82-85. -/
def correct : List (List K) → List (List K) → List (List K) → List (List K)
  | v :: vs, d :: ds, c :: cs => List.zipWith (fun x y => x + y) v (List.zipWith (fun x y => x - y) c d) :: correct vs ds cs
  | vs, _, _ => vs

/-- Variables after the step, and the deltas returned, lines 57-88; the variables given are those after the inner optimizer's step. -/
def clippingStep (root : K → K) (mode : Mode) (threshold : K) (vars deltas : List (List K)) : Option (List (List K) × List (List K)) :=
  match clipDeltas root mode threshold deltas with
  | none => none
  | some c => some (correct vars deltas c, c)

/-! ## natural_gradient.py -/

/-- Sum of products. -/
def dot : List K → List K → K
  | x :: xs, y :: ys => x * y + dot xs ys
  | _, _ => 0

/-- Lines 147-155. -/
def curvature (fisher : List K → List K) (delta : List K) : K := 1 / 2 * dot (fisher delta) delta

/-- Lines 166-176. -/
def multiplier (root : K → K) (rate eps constant : K) : K :=
  let m := (if 0 < constant then root constant else -(root (-constant))) / (rate + eps)
  if 0 < m then m + eps else m - eps

/-- Lines 192-198: whether the step is skipped. -/
def skipped (onlyPositive : Bool) (rate eps constant : K) : Bool := onlyPositive && decide (constant < eps * rate)

/-- The deltas returned, lines 148-198. -/
def naturalDeltas (root : K → K) (fisher : List K → List K) (onlyPositive : Bool) (rate eps : K) (solution : List K) : List K :=
  if skipped onlyPositive rate eps (curvature fisher solution) then solution.map (fun _ => 0)
  else solution.map (fun x => x / multiplier root rate eps (curvature fisher solution))

/-- Variables after the step. -/
def naturalStep (root : K → K) (fisher : List K → List K) (onlyPositive : Bool) (rate eps : K) (vars solution : List K) : List K :=
  if skipped onlyPositive rate eps (curvature fisher solution) then vars
  else List.zipWith (fun x y => x + y) vars (naturalDeltas root fisher onlyPositive rate eps solution)

end Verif.Grad
