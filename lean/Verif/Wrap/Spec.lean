import Verif.Wrap.Model

/-!
# The optimizer wrapper: what is expected

Independent of the model's functions except for its data types.
-/

namespace Verif.Wrap

/-- A modification of updates. -/
inductive Modifier where
  | clipping (threshold : Value)
  | multi (steps : Value)
  | subsampling (fraction : Value)
  | linesearch (iterations : Value)
  | doublecheck
  deriving Repr, DecidableEq

/-- The modifications of an optimizer, from outside to inside, and the specification of the innermost one. -/
inductive Nested : Tree → List Modifier → Entries → Prop where
  | base (e : Entries) : Nested (.base e) [] e
  | doublecheck {t : Tree} {ms : List Modifier} {e : Entries} : Nested t ms e → Nested (.doublecheck t) (.doublecheck :: ms) e
  | linesearch {t : Tree} {ms : List Modifier} {e : Entries} (v : Value) : Nested t ms e → Nested (.linesearch v t) (.linesearch v :: ms) e
  | subsampling {t : Tree} {ms : List Modifier} {e : Entries} (v : Value) : Nested t ms e → Nested (.subsampling v t) (.subsampling v :: ms) e
  | multi {t : Tree} {ms : List Modifier} {e : Entries} (v : Value) : Nested t ms e → Nested (.multi v t) (.multi v :: ms) e
  | clipping {t : Tree} {ms : List Modifier} {e : Entries} (v : Value) : Nested t ms e → Nested (.clipping v t) (.clipping v :: ms) e

/-- A specification of a hyperparameter. -/
def IsSpec (v : Value) : Prop := ∃ s, v = .spec s

/-- The documented values. -/
structure Documented (a : Arguments) : Prop where
  rate : IsSpec a.rate ∨ ∃ x, a.rate = .float x ∧ 0 < x
  clipping : ∀ v, a.clipping = some v → IsSpec v ∨ ∃ x, v = .float x ∧ 0 < x
  steps : IsSpec a.steps ∨ ∃ z, a.steps = .int z ∧ 1 ≤ z
  fraction : IsSpec a.fraction ∨ (∃ z, a.fraction = .int z ∧ 0 < z) ∨ ∃ x, a.fraction = .float x ∧ 0 < x ∧ x ≤ 1
  iterations : IsSpec a.iterations ∨ ∃ z, a.iterations = .int z ∧ 0 ≤ z
  deprecated : a.deprecated = false

/-- A modification is there if requested, and otherwise not. -/
def Part (requested : Prop) (m : Modifier) (l : List Modifier) : Prop := (requested → l = [m]) ∧ (¬requested → l = [])

/-- The requested modifications in the order of the arguments. -/
def Requested (a : Arguments) (ms : List Modifier) : Prop :=
  ∃ c m s l d, ms = c ++ (m ++ (s ++ (l ++ d))) ∧
    (∀ v, a.clipping = some v → c = [.clipping v]) ∧ (a.clipping = none → c = []) ∧
    Part (a.steps ≠ .int 1) (.multi a.steps) m ∧
    Part (a.fraction ≠ .float 1) (.subsampling a.fraction) s ∧
    Part (a.iterations ≠ .int 0) (.linesearch a.iterations) l ∧
    Part (a.doublecheck = true) .doublecheck d

/-- The value of a key: that of its first entry. -/
inductive Has : Entries → String → Value → Prop where
  | here (k : String) (v : Value) (l : Entries) : Has ((k, v) :: l) k v
  | there {k k' : String} {v v' : Value} {l : Entries} : k ≠ k' → Has l k v → Has ((k', v') :: l) k v

/-- There is no such key. -/
def Lacks (l : Entries) (k : String) : Prop := ∀ e ∈ l, e.1 ≠ k

/-- The entries which the user specified: the arguments given besides, the own entries, the learning rate if there is none, and the type if
only that is given. -/
structure Specified (g : Given) (a : Arguments) (e : Entries) : Prop where
  further : ∀ k v, Has a.further k v → Has e k v
  own : ∀ d k v, g = .dict d → Lacks a.further k → Has d k v → Has e k v
  rate : ∀ d, g = .dict d → Lacks a.further "learning_rate" → Lacks d "learning_rate" → Has e "learning_rate" a.rate
  type_ : ∀ v, g = .other v → Lacks a.further "type" → Has e "type" v
  otherRate : ∀ v, g = .other v → Lacks a.further "learning_rate" → Has e "learning_rate" a.rate
  only : ∀ k v, Has e k v → Has a.further k v ∨ (∃ d, g = .dict d ∧ Has d k v) ∨ (k = "learning_rate" ∧ v = a.rate) ∨ (k = "type" ∧ g = .other v)

/-- Optimizers with a learning rate, and the further arguments they need not be given. -/
inductive Rated : String → Prop where
  | tf (s : String) : s ∈ ["adadelta", "adagrad", "adam", "adamax", "ftrl", "nadam", "rmsprop", "sgd"] → Rated s
  | evolutionary : Rated "evolutionary"
  | natural : Rated "natural_gradient"

/-- The documented optimizers without learning rate. -/
def Unrated (s : String) : Prop := s ∈ ["plus", "clipping_step", "doublecheck_step", "global_optimizer", "linesearch_step", "multi_step",
  "subsampling_step", "synchronization"]

instance {ε α : Type} [DecidableEq ε] [DecidableEq α] : DecidableEq (Except ε α)
  | .ok a, .ok b => if h : a = b then isTrue (by rw [h]) else isFalse (fun e => h (Except.ok.inj e))
  | .error a, .error b => if h : a = b then isTrue (by rw [h]) else isFalse (fun e => h (Except.error.inj e))
  | .ok _, .error _ => isFalse nofun
  | .error _, .ok _ => isFalse nofun

end Verif.Wrap
