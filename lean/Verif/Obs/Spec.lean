import Verif.Obs.Model

/-!
# The forms of observe: what is expected

Independent of the model's functions except for its data types.
-/

namespace Verif.Obs

/-- A list or array with these entries. -/
inductive Entries {α : Type} : Arg α → List α → Prop where
  | list (xs : List α) : Entries (.list xs) xs
  | array (xs : List α) : Entries (.array xs) xs

/-- A single value, possibly as array without dimension. -/
inductive One {α : Type} : Arg α → α → Prop where
  | single (x : α) : One (.single x) x
  | array0 (x : α) : One (.array0 x) x

/-- The number of a terminal value. -/
inductive CodeOf : Code → Int → Prop where
  | pyFalse : CodeOf (.py false) 0
  | pyTrue : CodeOf (.py true) 1
  | npFalse : CodeOf (.np false) 0
  | npTrue : CodeOf (.np true) 1
  | num (z : Int) : CodeOf (.num z) z

section
variable {R : Type} [Zero R]

/-- The rewards of several interactions: entry by entry, or left out. -/
def RewardsOf (reward : Arg R) (l : List (Int × Int × R)) : Prop :=
  Entries reward (l.map (fun e => e.2.2)) ∨ reward = .single 0 ∧ ∀ e ∈ l, e.2.2 = 0

/-- The terminals of several interactions. -/
def TerminalsOf (terminal : Arg Code) (l : List (Int × Int × R)) : Prop :=
  (∃ cs, Entries terminal cs ∧ cs.length = l.length ∧ ∀ (i : Nat) c e, cs[i]? = some c → l[i]? = some e → CodeOf c e.2.1) ∨
  terminal = .single (.py false) ∧ ∀ e ∈ l, e.2.1 = 0

/-- The interactions: entry by entry, or left out, for all interactions in order. -/
def ParallelOf (n : Nat) (reward : Arg R) (terminal : Arg Code) (parallel : Arg Int) (l : List (Int × Int × R)) : Prop :=
  Entries parallel (l.map (fun e => e.1)) ∨
  parallel = .single 0 ∧ ((∃ xs, Entries reward xs) ∨ ∃ xs, Entries terminal xs) ∧ l.length = n ∧
    ∀ (i : Nat) e, l[i]? = some e → e.1 = (i : Int)

/-- What a call says: interaction, terminal and reward of each entry. -/
inductive Means (n : Nat) (reward : Arg R) (terminal : Arg Code) (parallel : Arg Int) : List (Int × Int × R) → Prop where
  | one {r : R} {c : Code} {t p : Int} : One reward r → One terminal c → CodeOf c t → One parallel p →
      Means n reward terminal parallel [(p, t, r)]
  | many {l : List (Int × Int × R)} : l ≠ [] → RewardsOf reward l → TerminalsOf terminal l → ParallelOf n reward terminal parallel l →
      Means n reward terminal parallel l

end

variable {R : Type}

/-- All rewards of an interaction since the beginning: those passed to the model, and those waiting. -/
def rewardsSeen (st : State R) (k : Nat) : List R :=
  (st.sent.filter (fun s => s.interaction = k)).flatMap (·.reward) ++ (st.rewards[k]?).getD []

/-- All terminals of an interaction. -/
def terminalsSeen (st : State R) (k : Nat) : List Int :=
  (st.sent.filter (fun s => s.interaction = k)).flatMap (·.terminal) ++ (st.terminals[k]?).getD []

/-- What `Model.observe` asserts (model.py 657-681): an interaction, as many rewards as terminals, valid terminals, only the last one
different from 0. -/
structure Acceptable (n : Nat) (s : Call R) : Prop where
  interaction : s.interaction < n
  nonempty : s.terminal ≠ []
  length : s.reward.length = s.terminal.length
  codes : ∀ t ∈ s.terminal, t = 0 ∨ t = 1 ∨ t = 2
  last : ∀ (i : Nat) t, s.terminal[i]? = some t → i + 1 < s.terminal.length → t = 0

/-- Time steps wait only until the episode ends or the buffer is full: fewer wait than the buffer takes, none of them terminal, and each
batch passed to the model ends with a terminal or fills the buffer. -/
structure Prompt (c : Config) (st : State R) : Prop where
  few : ∀ b, c.buffer = some b → ∀ (k : Nat) ts, st.terminals[k]? = some ts → ts = [] ∨ ts.length < b
  open_ : ∀ (k : Nat) ts, st.terminals[k]? = some ts → ∀ t ∈ ts, t = 0
  due : ∀ s ∈ st.sent, (∃ init t, s.terminal = init ++ [t] ∧ t ≠ 0) ∨ ∃ b, c.buffer = some b ∧ s.terminal.length = max b 1

/-- Lists have an entry for each interaction. -/
structure Sized (n : Nat) (st : State R) : Prop where
  completed : st.completed.length = n
  counter : st.counter.length = n
  terminals : st.terminals.length = n
  rewards : st.rewards.length = n

instance {ε α : Type} [DecidableEq ε] [DecidableEq α] : DecidableEq (Except ε α)
  | .ok a, .ok b => if h : a = b then isTrue (by rw [h]) else isFalse (fun e => h (Except.ok.inj e))
  | .error a, .error b => if h : a = b then isTrue (by rw [h]) else isFalse (fun e => h (Except.error.inj e))
  | .ok _, .error _ => isFalse nofun
  | .error _, .ok _ => isFalse nofun

end Verif.Obs
