import Verif.Grad.Model

/-!
# Clipping and natural gradient: what is expected

Independent of the model's functions except for its data types.
-/

namespace Verif.Grad

variable {K : Type} [Field K] [LinearOrder K]

/-- `r` is the square root of `x`. -/
def IsRoot (x r : K) : Prop := 0 ≤ r ∧ r * r = x

instance (x r : K) : Decidable (IsRoot x r) := inferInstanceAs (Decidable (0 ≤ r ∧ r * r = x))

/-- Squared norm of a tensor. -/
def normSq (t : List K) : K := (t.map (fun x => x ^ 2)).sum

/-- Squared global norm. -/
def globalSq (l : List (List K)) : K := (l.flatten.map (fun x => x ^ 2)).sum

/-- The second tensor is the first one times `s`. -/
inductive Scaled (s : K) : List K → List K → Prop where
  | nil : Scaled s [] []
  | cons {x : K} {t u : List K} : Scaled s t u → Scaled s (x :: t) (s * x :: u)

/-- Two lists of tensors, related one by one. -/
inductive EachRel {α β : Type} (R : α → β → Prop) : List α → List β → Prop where
  | nil : EachRel R [] []
  | cons {a : α} {b : β} {l : List α} {m : List β} : R a b → EachRel R l m → EachRel R (a :: l) (b :: m)

/-- Variables with a gradient, in order, with this gradient times `s`. -/
inductive Applied {ι : Type} (s : K) : List (Option (List K)) → List ι → List (List K × ι) → Prop where
  | nil : Applied s [] [] []
  | missing {gs : List (Option (List K))} {v : ι} {vs : List ι} {l : List (List K × ι)} :
      Applied s gs vs l → Applied s (none :: gs) (v :: vs) l
  | given {g u : List K} {gs : List (Option (List K))} {v : ι} {vs : List ι} {l : List (List K × ι)} :
      Scaled s g u → Applied s gs vs l → Applied s (some g :: gs) (v :: vs) ((u, v) :: l)

/-- Squared norm of all gradients which exist. -/
def gradSq : List (Option (List K)) → K
  | [] => 0
  | none :: gs => gradSq gs
  | some g :: gs => normSq g + gradSq gs

/-- The factor by which something with this squared norm is clipped: it keeps the direction, the norm is at most the threshold, the same if it
was at most the threshold, and otherwise the threshold. -/
structure Factor (sq clip s : K) : Prop where
  nonneg : 0 ≤ s
  le_one : s ≤ 1
  bounded : s ^ 2 * sq ≤ clip ^ 2
  within : sq ≤ clip ^ 2 → s = 1
  beyond : clip ^ 2 ≤ sq → s ^ 2 * sq = clip ^ 2

/-- The nearest value between `-c` and `c`. -/
structure Nearest (c x y : K) : Prop where
  lower : -c ≤ y
  upper : y ≤ c
  within : -c ≤ x → x ≤ c → y = x
  above : c ≤ x → y = c
  below : x ≤ -c → y = -c

/-- Entry by entry the sum. -/
inductive Sum : List K → List K → List K → Prop where
  | nil : Sum [] [] []
  | cons {x y : K} {a b c : List K} : Sum a b c → Sum (x :: a) (y :: b) ((x + y) :: c)

/-- One by one the sum. -/
inductive SumAll : List (List K) → List (List K) → List (List K) → Prop where
  | nil : SumAll [] [] []
  | cons {x y z : List K} {a b c : List (List K)} : Sum x y z → SumAll a b c → SumAll (x :: a) (y :: b) (z :: c)

/-- Inner product of lists. -/
def inner (a b : List K) : K := ((a.zip b).map (fun p => p.1 * p.2)).sum

/-- Second-order approximation of the KL divergence of a step. -/
def divergence (fisher : List K → List K) (delta : List K) : K := inner (fisher delta) delta / 2

/-- The Fisher matrix product is homogeneous and keeps the number of entries. -/
structure Homogeneous (fisher : List K → List K) : Prop where
  scaled : ∀ s a b, Scaled s a b → Scaled s (fisher a) (fisher b)
  length : ∀ a, (fisher a).length = a.length

/-- The solver's equation: Fisher product plus damping times the solution equals the negative gradient. -/
inductive Solves (damping : K) : List K → List K → List K → Prop where
  | nil : Solves damping [] [] []
  | cons {f x g : K} {fs xs gs : List K} : f + damping * x = -g → Solves damping fs xs gs → Solves damping (f :: fs) (x :: xs) (g :: gs)

instance {ε α : Type} [DecidableEq ε] [DecidableEq α] : DecidableEq (Except ε α)
  | .ok a, .ok b => if h : a = b then isTrue (by rw [h]) else isFalse (fun e => h (Except.ok.inj e))
  | .error a, .error b => if h : a = b then isTrue (by rw [h]) else isFalse (fun e => h (Except.error.inj e))
  | .ok _, .error _ => isFalse nofun
  | .error _, .ok _ => isFalse nofun

end Verif.Grad
