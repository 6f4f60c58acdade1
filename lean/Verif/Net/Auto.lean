import Verif.Net.Model
import Verif.Layer.Shape

/-!
# Model of `AutoNetwork`

Models `tensorforce/core/networks/auto.py` 49-177 and the specifications announced by the layers it uses: `Embedding` (embedding.py 77-90), `Dense`
(dense.py 72-83), `Conv1d`, `Conv2d`, `Pooling`, `Flatten`, `Register` and `Retrieve` as in the model of shapes, `Lstm` (rnn.py 96-110).

Simplifications: of a specification only type, shape and whether `num_values` is given are modelled. Sizes and depths are natural numbers. The names of
the layers are left out. Convolutions have their default arguments: window 3, stride 1, padding `same`.
-/

namespace Verif.Net

open Verif.Layer (Padding Axis Trans announceConv announcePooling announceRetrieve SError)

inductive AType where
  | bool
  | int
  | float
deriving DecidableEq, Repr

/-- Type and shape of a tensor. -/
structure ASpec where
  type : AType
  shape : List Nat
deriving DecidableEq, Repr

/-- A state, with its name unless it is the only one. -/
structure AInput where
  name : Option String
  spec : ASpec
  numValues : Option Nat
deriving DecidableEq, Repr

inductive ALayer where
  | retrieve (tensors : List String)
  | embedding (size : Nat)
  | flatten
  | dense (size : Nat)
  | conv1d (size : Nat)
  | conv2d (size : Nat)
  | pooling
  | register (tensor : String)
  | lstm (size : Nat)
deriving DecidableEq, Repr

structure AutoArgs where
  size : Nat := 64
  depth : Nat := 2
  finalSize : Option Nat := none
  finalDepth : Option Nat := some 1
  rnn : Bool := false
deriving DecidableEq, Repr

/-- auto.py 102. -/
def ASpec.embedded (s : ASpec) : Bool := s.type == .bool || s.type == .int

/-- `1 - requires_embedding` and so on. -/
def ASpec.less (s : ASpec) (n : Nat) : Nat := if s.embedded then n - 1 else n

/-- auto.py 119-131: layers before, and the layer which is repeated. -/
def shapeLayer (s : ASpec) (size : Nat) : Except NError (List ALayer × ALayer) :=
  if s.shape.length = s.less 1 then .ok ([], .dense size)
  else if s.shape.length = s.less 2 then .ok ([], .conv1d size)
  else if s.shape.length = s.less 3 then .ok ([], .conv2d size)
  else if s.shape.length = 0 then .ok ([.flatten], .dense size)
  else .error .value

/-- auto.py 85-149: the layers for a state. -/
def autoState (a : AutoArgs) (i : AInput) : Except NError (List ALayer) :=
  if i.spec.type = .int ∧ i.numValues = none then .error .value
  else match shapeLayer i.spec a.size with
    | .error e => .error e
    | .ok (first, layer) =>
      let layers := (if i.spec.embedded then [.embedding a.size] else []) ++ first ++ List.replicate (i.spec.less a.depth) layer ++
        (if i.spec.less 1 < i.spec.shape.length then [.pooling] else [])
      match i.name with
      | none => .ok layers
      | some n => .ok (.retrieve [n] :: layers ++ [.register (n ++ "-embedding")])

/-- All or an error. -/
def autoStates (a : AutoArgs) : List AInput → Except NError (List ALayer)
  | [] => .ok []
  | i :: is =>
    match autoState a i, autoStates a is with
    | .ok l, .ok ls => .ok (l ++ ls)
    | .error e, _ => .error e
    | _, .error e => .error e

/-- auto.py 60-177: the layers in the order of their creation and application. -/
def auto (a : AutoArgs) (inputs : List AInput) (outputs : Option (List String)) : Except NError (List ALayer) :=
  if inputs.length = 1 ∧ a.finalSize ≠ none then .error .invalid
  else if inputs.length = 1 ∧ a.finalDepth ≠ none ∧ a.finalDepth ≠ some 1 then .error .invalid
  else if outputs ≠ none then .error .invalid
  else match autoStates a inputs with
    | .error e => .error e
    | .ok ls =>
      let finalSize := a.finalSize.getD a.size
      .ok (ls ++
        (if inputs.length = 1 then []
        else .retrieve (inputs.filterMap fun i => i.name.map (· ++ "-embedding")) :: List.replicate (a.finalDepth.getD 0) (.dense finalSize)) ++
        (if a.rnn then [.lstm finalSize] else []))

/-! ### What the layers announce -/

/-- The announced specification and the registered tensors. -/
structure AState where
  out : ASpec
  tensors : List (String × ASpec)
deriving DecidableEq, Repr

/-- A shape announced for an input of type float. -/
def floatShape (s : ASpec) (rank : Option Nat) (f : List Nat → Except SError (List Int)) : Except NError ASpec :=
  if s.type ≠ .float ∨ (rank.isSome ∧ rank ≠ some s.shape.length) then .error .mismatch
  else match f s.shape with
    | .error _ => .error .value
    | .ok l => .ok ⟨.float, l.map Int.toNat⟩

def axis3 : Axis := ⟨3, 1, 1⟩

/-- The specification announced by a layer which has one input. -/
def announce (l : ALayer) (s : ASpec) : Except NError ASpec :=
  match l with
  | .embedding size => if s.embedded then .ok ⟨.float, if size = 0 then s.shape else s.shape ++ [size]⟩ else .error .mismatch
  | .flatten => floatShape s none (announcePooling .concat)
  | .pooling => floatShape s none (announcePooling .other)
  | .dense size => floatShape s (some 1) (announceConv .same [] ⟨size, false⟩)
  | .conv1d size => floatShape s (some 2) (announceConv .same [axis3] ⟨size, false⟩)
  | .conv2d size => floatShape s (some 3) (announceConv .same [axis3, axis3] ⟨size, false⟩)
  | .lstm size => floatShape s (some 1) (announceConv .same [] ⟨size, false⟩)
  | .register _ => .ok s
  | .retrieve _ => .error .invalid

/-- A single tensor, or tensors of the same type joined along the first axis. -/
def announceJoin (bs : List ASpec) : Except NError ASpec :=
  match bs with
  | [] => .error .value
  | [b] => .ok b
  | b :: rest =>
    if rest.any fun c => c.type ≠ b.type then .error .mismatch
    else match announceRetrieve .concat 0 (bs.map ASpec.shape) with
      | .error _ => .error .value
      | .ok l => .ok ⟨b.type, l.map Int.toNat⟩

/-- A layer of a network, as in `netLayer`. -/
def autoLayer (l : ALayer) (st : AState) : Except NError AState :=
  match l with
  | .retrieve ts =>
    match lookupAll ts st.tensors with
    | none => .error .existsNot
    | some bs =>
      if ts = [] ∨ ¬ ts.Nodup then .error .value
      else match announceJoin bs with
        | .error e => .error e
        | .ok out => .ok ⟨out, st.tensors⟩
  | .register t => if (st.tensors.lookup t).isSome then .error .exists_ else .ok ⟨st.out, (t, st.out) :: st.tensors⟩
  | _ =>
    match announce l st.out with
    | .error e => .error e
    | .ok out => .ok ⟨out, st.tensors⟩

/-- The registered inputs: an input without a name is registered as `state`. -/
def autoStart (inputs : List AInput) : List (String × ASpec) := inputs.map fun i => (i.name.getD "state", i.spec)

/-- The specification announced by the whole network. -/
def autoNetwork (a : AutoArgs) (inputs : List AInput) (outputs : Option (List String)) : Except NError ASpec :=
  match inputs.head?, auto a inputs outputs with
  | none, _ => .error .value
  | _, .error e => .error e
  | some i, .ok ls =>
    match chain autoLayer ls ⟨i.spec, autoStart inputs⟩ with
    | .error e => .error e
    | .ok st => .ok st.out

end Verif.Net
