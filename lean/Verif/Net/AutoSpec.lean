import Verif.Net.Auto

/-! What is expected of `AutoNetwork`: the documentation of its arguments (auto.py 27-40) and of the supported states (119-131). -/

namespace Verif.Net

/-- Which states are supported: up to three axes, one of them for the embedding of discrete values, and the number of these has to be known. -/
def AInput.supported (i : AInput) : Prop :=
  (i.spec.type = .int → i.numValues.isSome) ∧ i.spec.shape.length ≤ (if i.spec.type = .float then 3 else 2)

/-- A state with a name. -/
def named (p : String × ASpec × Option Nat) : AInput := ⟨some p.1, p.2.1, p.2.2⟩

/-- The size of the output for `n` states. -/
def outSize (a : AutoArgs) (n : Nat) : Nat :=
  if a.rnn ∨ (1 < n ∧ 0 < a.finalDepth.getD 0) then a.finalSize.getD a.size else n * a.size

/-- A layer with weights. -/
def ALayer.weighted : ALayer → Bool
  | .embedding _ | .dense _ | .conv1d _ | .conv2d _ => true
  | _ => false

end Verif.Net
