import Verif.Session.Model

/-!
# Terms of the properties of the session state
-/

namespace Verif.Session

variable {V S I A : Type}

/-- The call ends the episode of interaction `p`. -/
def Call.ends (p : Nat) : Call V S I → Bool
  | .observe q terminal _ _ => q == p && terminal.any (0 < ·)
  | _ => false

/-- Calls since the end of the previous episode of interaction `p`; `f` gives the call of an entry. -/
def current {α : Type} (f : α → Call V S I) (p : Nat) (calls : List α) : List α :=
  (calls.reverse.takeWhile fun c => !(f c).ends p).reverse

/-- Rewards which the call observes for interaction `p`. -/
def Call.rewards (p : Nat) : Call V S I → List Rat
  | .observe q _ reward _ => if q = p then reward else []
  | _ => []

/-- States of interaction `p` which the call acts on. -/
def Call.states (p : Nat) : Call V S I → List S
  | .act batch => (batch.filter (·.1 = p)).map (·.2)
  | _ => []

/-- Number of timesteps which the call acts on. -/
def Call.acted : Call V S I → Nat
  | .act batch => batch.length
  | _ => 0

/-- The call ends an episode. -/
def Call.terminal : Call V S I → Bool
  | .observe _ terminal _ _ => terminal.any (0 < ·)
  | _ => false

/-- The call updates the variables. -/
def Call.updated : Call V S I → Option V
  | .observe _ _ _ update => update
  | _ => none

/-- Each call with the variables before it. -/
def annotate (vars : V) : List (Call V S I) → List (V × Call V S I)
  | [] => []
  | c :: cs => (vars, c) :: annotate (c.updated.getD vars) cs

/-- What interaction `p` has seen in its running episode: its states, with the variables of that time. -/
def seen (p : Nat) (vars : V) (calls : List (Call V S I)) : List (V × S) :=
  (current (·.2) p (annotate vars calls)).flatMap fun x => (x.2.states p).map fun s => (x.1, s)

/-- Rewards of interaction `p` in its running episode. -/
def rewards (p : Nat) (calls : List (Call V S I)) : List Rat := (current id p calls).flatMap (·.rewards p)

/-- Internal state after the given states, from the initial one. -/
def Net.after (net : Net V S I A) (xs : List (V × S)) : I := xs.foldl (fun i x => (net.step x.1 x.2 i).2) net.initial

/-- Actions when every state is acted on independently, with the internal state which the previous call has returned. -/
def Net.actions (net : Net V S I A) (i : I) : List (V × S) → List A
  | [] => []
  | x :: xs => (net.step x.1 x.2 i).1 :: net.actions (net.step x.1 x.2 i).2 xs

/-- The counters in a result are those of the state. -/
def Result.agrees (c : Call V S I) (st : State V I) : Result I A → Prop
  | .acted _ t => t = st.timesteps
  | .independent _ => True
  | .observed u e k => u = c.updated.isSome ∧ e = st.episodes ∧ k = st.updates
  | .counters t e k => t = st.timesteps ∧ e = st.episodes ∧ k = st.updates

/-- No interaction occurs twice in a batch. -/
def Call.distinct : Call V S I → Prop
  | .act batch => (batch.map (·.1)).Nodup
  | _ => True

/-- The arguments are valid for `n` parallel interactions. -/
def Call.valid (n : Nat) : Call V S I → Prop
  | .act batch => ∀ x ∈ batch, x.1 < n
  | .observe p terminal reward _ => p < n ∧ reward.length = terminal.length ∧
      ∃ (k e : Nat), e < 3 ∧ terminal = List.replicate k 0 ++ [e]
  | _ => True

end Verif.Session
