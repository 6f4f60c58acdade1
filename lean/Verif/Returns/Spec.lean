import Verif.Returns.Model

/-!
# Specification of return estimation

No buffers, no indices: an episode is a list of items (record, terminal code, reward), the history of calls
only decides where the episodes are cut and when a timestep is handed over.
-/

namespace Verif.Returns

/-- A timestep: what was acted on, terminal code, reward. -/
abbrev Item (σ : Type) := σ × Nat × Rat

/-- Textbook truncated discounted return `Σ_{k<h} γ^k r_k`, cut at the end of the list. -/
def discSum (γ : Rat) (h : Nat) (rs : List Rat) : Rat :=
  (((rs.take h).zipIdx).map (fun p => γ ^ p.2 * p.1)).sum

/-- Value of the head of a list of (reward, value estimate) pairs, zero past the end. -/
def headValue : List (Rat × Rat) → Rat
  | [] => 0
  | (_, v) :: _ => v

/-- Truncated λ-return: `n` steps of `r_t + γ ((1-λ) V(s_{t+1}) + λ G_{t+1})`, then bootstrapped with the
value estimate; zero past the end of the episode. -/
def lamReturn (γ l : Rat) : Nat → List (Rat × Rat) → Rat
  | _, [] => 0
  | 0, (_, v) :: _ => v
  | n + 1, (r, _) :: rest => r + γ * ((1 - l) * headValue rest + l * lamReturn γ l n rest)

/-- Value estimate that is used: the prediction with early horizon values, otherwise zero. -/
def Config.ev {σ : Type} (c : Config σ) (s : σ) : Rat := if c.early then c.V s else 0

def Config.trace {σ : Type} (c : Config σ) : Rat := c.lam.getD 1

/-- Whether the value of the state behind the last timestep has to be estimated. -/
def Config.boots {σ : Type} (c : Config σ) (t : Nat) : Bool := c.predTerm || t != 1

/-- Rewards and value estimates of an unfinished episode. -/
def plain {σ : Type} (c : Config σ) (L : List (Item σ)) : List (Rat × Rat) :=
  L.map fun x => (x.2.2, c.ev x.1)

/-- Rewards and value estimates of a finished episode: the last reward is replaced by the estimate if the
episode was aborted (or if values are to be predicted for all terminals). -/
def finished {σ : Type} (c : Config σ) : List (Item σ) → List (Rat × Rat)
  | [] => []
  | [(s, t, r)] => [(if c.boots t then c.ev s else r, c.ev s)]
  | (s, _, r) :: y :: L => (r, c.ev s) :: finished c (y :: L)

/-- All truncated returns of an episode, in order. -/
def allReturns (γ l : Rat) (h : Nat) (P : List (Rat × Rat)) : List Rat :=
  match P with
  | [] => []
  | p :: P => lamReturn γ l h (p :: P) :: allReturns γ l h P

/-- Attach returns to items. -/
def attach {σ : Type} (L : List (Item σ)) (ret : List Rat) : List (σ × Nat × Option Rat) :=
  List.zipWith (fun x g => (x.1, x.2.1, some g)) L ret

/-- What is known about the history so far: what was handed over, the observed part of the current
episode, how much of it was handed over, and the timesteps acted on but not yet observed. -/
structure Ghost (σ : Type) where
  out : List (σ × Nat × Option Rat)
  done : List (List (Item σ))
  cur : List (Item σ)
  n : Nat
  pend : List σ

def Ghost.init {σ : Type} : Ghost σ := ⟨[], [], [], 0, []⟩

def Ghost.step {σ : Type} (c : Config σ) (u : Setup) (g : Ghost σ) : Op σ → Ghost σ
  | .act s => { g with pend := g.pend ++ [s] }
  | .observe h batch =>
    let cur := g.cur ++ g.pend.zip batch
    let H := if u.episodeHorizon then cur.length else h
    if isTerminal batch then
      { out := g.out ++ (attach cur (allReturns c.gamma c.trace H (finished c cur))).drop g.n
        done := g.done ++ [cur], cur := [], n := 0, pend := [] }
    else
      let m := if u.mode = .circular then max g.n (cur.length - h) else 0
      { g with out := g.out ++ ((attach cur (allReturns c.gamma c.trace h (plain c cur))).drop g.n).take (m - g.n)
               cur := cur, n := m, pend := [] }

def Ghost.run {σ : Type} (c : Config σ) (u : Setup) (g : Ghost σ) (ops : List (Op σ)) : Ghost σ :=
  ops.foldl (fun g o => g.step c u o) g

/-- The protocol of the agent: `act` is called only while fewer than `buffer_observe` timesteps are waiting to
be observed and the episode is shorter than `max_episode_timesteps`; `observe` reports on exactly the waiting
timesteps, with a current horizon between 1 and its maximum; with `buffer_observe='episode'` only at the end of
an episode. -/
def Allowed {σ : Type} (bo hmax met : Option Nat) (g : Ghost σ) : Op σ → Prop
  | .act _ => (∀ B, bo = some B → g.pend.length < B) ∧ (∀ M, met = some M → g.cur.length + g.pend.length < M)
  | .observe h batch => batch.length = g.pend.length ∧ 1 ≤ h ∧ (∀ hm, hmax = some hm → h ≤ hm) ∧
      (bo = none → isTerminal batch = true ∨ batch = [])

/-- Episodes for which the return is a number: with discount zero no value behind the last timestep may be
needed, with TD(λ) the episode must be longer than one timestep. -/
def Regular {σ : Type} (c : Config σ) (g : Ghost σ) : Op σ → Prop
  | .act _ => True
  | .observe _ batch => isTerminal batch = true →
      (c.gamma ≠ 0 ∨ c.boots (batch.getLastD (0, 0)).1 = false) ∧
      (c.lam ≠ none → 2 ≤ g.cur.length + g.pend.length)

/-- Every operation of the history satisfies `P` in the state in which it is issued. -/
def Always {σ : Type} (c : Config σ) (u : Setup) (P : Ghost σ → Op σ → Prop) (g : Ghost σ) : List (Op σ) → Prop
  | [] => True
  | o :: ops => P g o ∧ Always c u P (g.step c u o) ops

/-- The textbook result for an episode: every timestep once and in order, with the discounted sum of the next
`h` rewards, cut at the end of the episode. -/
def textbook {σ : Type} (γ : Rat) (h : Nat) : List (Item σ) → List (σ × Nat × Option Rat)
  | [] => []
  | x :: ep => (x.1, x.2.1, some (discSum γ h ((x :: ep).map fun y => y.2.2))) :: textbook γ h ep

/-- The horizon that applies to an episode. -/
def horizonOf {σ : Type} (u : Setup) (h : Nat) (ep : List (Item σ)) : Nat :=
  if u.episodeHorizon then ep.length else h

/-- All episodes of the history end regularly (terminal code 1). -/
def EndsRegularly {σ : Type} (_g : Ghost σ) : Op σ → Prop
  | .act _ => True
  | .observe _ batch => isTerminal batch = true → (batch.getLastD (0, 0)).1 = 1

/-- The episode with the last reward removed if it did not end regularly. -/
def dropAbortReward {σ : Type} : List (Item σ) → List (Item σ)
  | [] => []
  | [(s, t, r)] => [(s, t, if t = 1 then r else 0)]
  | x :: y :: L => x :: dropAbortReward (y :: L)

/-- All records acted on, in order. -/
def acted {σ : Type} (ops : List (Op σ)) : List σ :=
  ops.flatMap fun o => match o with
    | .act s => [s]
    | .observe _ _ => []

/-- All (terminal, reward) pairs observed, in order. -/
def observed {σ : Type} (ops : List (Op σ)) : List (Nat × Rat) :=
  ops.flatMap fun o => match o with
    | .act _ => []
    | .observe _ batch => batch

end Verif.Returns
