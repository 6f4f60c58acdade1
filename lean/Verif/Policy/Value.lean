import Verif.Policy.Model

/-!
# Value policies

`tensorforce/core/policies/value_policy.py` and `parametrized_value_policy.py`: actions, action values
and state values, for one timestep.  Simplifications: the output of the network and of the linear
layers is an input of the model; the components of all actions (entries of arrays and of
dictionaries) are one list, in the order in which `tf.reshape` and `tf.concat` put them.
-/

namespace Verif.Policy

variable {K : Type} [Field K] [LinearOrder K]

/-- One component of an action with the output of its layer `a_values[name]`: two numbers for a
boolean, the first one for `True`, and one number per value for an integer, whose mask is `none` if
action masking is disabled. -/
inductive Element (K : Type) where
  | bool (x y : K)
  | int (values : List K) (mask : Option (List Bool))

/-- The first two of the three values of `state_value_mode`, `parametrized_value_policy.py:73-79`.
For the third one see `perActionShape`. -/
inductive Mode where
  | implicit
  | separate

/-- Output of the layer as a list. -/
def Element.outputs : Element K → List K
  | .bool x y => [x, y]
  | .int vs _ => vs

/-- Values of all choices of a component, `parametrized_value_policy.py:240-245` and
`parametrized_value_policy.py:261-270`; `state` is the output of the layer `s_value`. -/
def Element.values (mode : Mode) (state : K) (e : Element K) : List K :=
  match mode with
  | .implicit => e.outputs
  | .separate => e.outputs.map fun v => state + (v - mean e.outputs)

/-- Entry of a tensor whose last axis is known to be long enough. -/
def entry (xs : List K) (i : Nat) : K := xs.getD i 0

/-- Value of a component of an action: `True` or `False`, or an integer. -/
inductive Choice where
  | bool (b : Bool)
  | int (n : Nat)
  deriving DecidableEq

/-- `act`, `parametrized_value_policy.py:306-369`. -/
def Element.act (mode : Mode) (state : K) (e : Element K) : Choice :=
  match e with
  | .bool _ _ => .bool (decide (entry (e.values mode state) 1 < entry (e.values mode state) 0))
  | .int _ mask => .int (argmax (applyMask mask (e.values mode state)))

/-- `action_values`, `parametrized_value_policy.py:408-423` and
`parametrized_value_policy.py:440-459`; `none` if the action has another type or is out of range. -/
def Element.actionValue (mode : Mode) (state : K) (e : Element K) (c : Choice) : Option K :=
  match e, c with
  | .bool _ _, .bool b =>
    some (if b then entry (e.values mode state) 0 else entry (e.values mode state) 1)
  | .int _ _, .int n => (e.values mode state)[n]?
  | _, _ => none

/-- `state_values`, `parametrized_value_policy.py:523-537` and
`parametrized_value_policy.py:553-571`. -/
def Element.stateValue (mode : Mode) (state : K) (e : Element K) : K :=
  match e with
  | .bool _ _ => max (entry (e.values mode state) 0) (entry (e.values mode state) 1)
  | .int _ mask => maximum (applyMask mask (e.values mode state))

/-- `act` for all components. -/
def actValue (mode : Mode) (state : K) (es : List (Element K)) : List Choice :=
  es.map fun e => e.act mode state

/-- `action_values` for all components; `none` if there are not as many choices. -/
def actionValues (mode : Mode) (state : K) : List (Element K) → List Choice → Option (List K)
  | [], [] => some []
  | e :: es, c :: cs =>
    match e.actionValue mode state c, actionValues mode state es cs with
    | some v, some vs => some (v :: vs)
    | _, _ => none
  | _, _ => none

/-- `ValuePolicy.action_value`, `value_policy.py:111-124`: mean over the components. -/
def actionValue (mode : Mode) (state : K) (es : List (Element K)) (cs : List Choice) : Option K :=
  (actionValues mode state es cs).map mean

/-- `state_value`, `parametrized_value_policy.py:373-389` and `value_policy.py:126-138`. -/
def stateValue (mode : Mode) (state : K) (es : List (Element K)) : K :=
  match mode with
  | .separate => state
  | .implicit => mean (es.map fun e => e.stateValue mode state)

/-- Shape of a sum of two tensors of the same rank, `none` if they cannot be broadcast. -/
def broadcastAll : List Nat → List Nat → Option (List Nat)
  | [], [] => some []
  | a :: as, b :: bs =>
    if a = b ∨ b = 1 then (broadcastAll as bs).map (a :: ·)
    else if a = 1 then (broadcastAll as bs).map (b :: ·)
    else none
  | _, _ => none

/-- Shape of a sum of two tensors: the shape of smaller rank is filled with ones in front. -/
def broadcastShape (xs ys : List Nat) : Option (List Nat) :=
  broadcastAll (List.replicate (ys.length - xs.length) 1 ++ xs)
    (List.replicate (xs.length - ys.length) 1 ++ ys)

/-- Shape of the action values of an action with `state_value_mode='separate-per-action'`,
`parametrized_value_policy.py:276-299`: `size` is the size of the layer `s_values[name]`
(`parametrized_value_policy.py:133-147`, the size of the *state* `name`), whose output of shape
`[batch, size]` gets a last axis of length 1. -/
def perActionShape (batch size : Nat) (shape : List Nat) (numValues : Nat) : Option (List Nat) :=
  broadcastShape [batch, size, 1] (batch :: shape ++ [numValues])

end Verif.Policy
