import Verif.Cart.Spec

/-!
# Instances in parallel behave like instances alone
-/

namespace Verif.Cart

variable {K : Type} [Field K] [LinearOrder K]

/-- The force for an instance. -/
def Choice.force (c : Config K) (p : Physics K) : Choice K → Nat → K
  | .floats f, k => (if c.continuous then f k else relForceOf (f k)) * (p.force * c.gravity)
  | .ints f, k => relForce (f k) * (p.force * c.gravity)

theorem forces_eq {c : Config K} (p : Physics K) {ch : Choice K} (h : ch.ok c) (is : List Nat) :
    forces c p (ch.actions is) = .ok (is.map (ch.force c p)) := by
  cases ch with
  | floats f =>
    simp only [Choice.actions, forces, List.map_map]
    rfl
  | ints f =>
    have h : c.continuous = false := h
    simp only [Choice.actions, forces, h, List.map_map]
    rfl

theorem broadcast_eq {n : Nat} {xs : List K} (h : xs.length = n) : broadcast n xs = .ok xs := by
  rw [broadcast.eq_def, if_pos h]

/-- The next state of an instance. -/
def next (t : Trig K) (c : Config K) (p : Physics K) (ch : Choice K) (k : Nat) (s : State K) : State K :=
  advance t c.gravity c.timedelta p s (ch.force c p k)

theorem execute_solo {t : Trig K} {c : Config K} {p : Physics K} {ch : Choice K} (h : ch.ok c) (k : Nat) (s : State K) :
    execute t c (solo p s) (ch.actions [k]) = .ok (solo p (next t c p ch k s),
      { indices := [0], states := [c.view (next t c p ch k s)], terminal := [terminal c.bounds (next t c p ch k s)], rewards := [1] }) := by
  simp only [execute, solo]
  rw [forces_eq p h]
  simp [broadcast, next]

theorem continued_solo {t : Trig K} {c : Config K} {p : Physics K} {ch : Choice K} (h : ch.ok c) (k : Nat) (s : State K) :
    continued (execute t c (solo p s) (ch.actions [k])) =
      if terminal c.bounds (next t c p ch k s) then none else some (solo p (next t c p ch k s)) := by
  rw [execute_solo h, continued]
  by_cases hd : terminal c.bounds (next t c p ch k s) = true
  · simp [hd]
  · simp [hd]

section
variable (t : Trig K) (c : Config K) (u : Physics K) (us : List (State K)) (choice : Nat → Choice K)

/-- The state of an instance which runs alone. -/
def soloState (k n : Nat) : State K := ((alone t c u us choice k n).bind (·.states.head?)).getD .rest

variable {t c u us choice}

theorem alone_solo (hc : ∀ n, (choice n).ok c) (k n : Nat) :
    alone t c u us choice k n = none ∨ alone t c u us choice k n = some (solo (drawPhysics c u) (soloState t c u us choice k n)) := by
  induction n with
  | zero =>
    rw [alone]
    cases hk : us[k]? with
    | none => exact .inl rfl
    | some x =>
      right
      simp only [soloState, alone, hk]
      rfl
  | succ n ih =>
    rcases ih with e | e
    · left
      rw [alone, e]
    · have h := continued_solo (t := t) (p := drawPhysics c u) (hc n) k (soloState t c u us choice k n)
      by_cases hd : terminal c.bounds (next t c (drawPhysics c u) (choice n) k (soloState t c u us choice k n)) = true
      · left
        rw [alone, e]
        simp only [h, hd, if_true]
      · right
        have h' : alone t c u us choice k (n + 1) =
            some (solo (drawPhysics c u) (next t c (drawPhysics c u) (choice n) k (soloState t c u us choice k n))) := by
          rw [alone, e]
          simp only [h, if_neg hd]
        rw [h']
        congr 2
        conv_rhs => rw [soloState, h']
        rfl

/-- A step of an instance which runs alone. -/
theorem alone_succ (hc : ∀ n, (choice n).ok c) {k n : Nat} (hk : (alone t c u us choice k n).isSome = true) :
    alone t c u us choice k (n + 1) =
      if terminal c.bounds (next t c (drawPhysics c u) (choice n) k (soloState t c u us choice k n)) then none
      else some (solo (drawPhysics c u) (next t c (drawPhysics c u) (choice n) k (soloState t c u us choice k n))) := by
  rcases alone_solo (t := t) (u := u) (us := us) hc k n with e | e
  · rw [e] at hk
    cases hk
  · rw [alone, e]
    exact continued_solo (hc n) k _

theorem alone_prev {k n : Nat} (h : (alone t c u us choice k (n + 1)).isSome = true) : (alone t c u us choice k n).isSome = true := by
  cases e : alone t c u us choice k n with
  | none => simp [alone, e] at h
  | some x => rfl

theorem keep_map {α β : Type} (p : α → Bool) (g : α → β) (xs : List α) : keep (xs.map p) (xs.map g) = (xs.filter fun x => !p x).map g := by
  induction xs with
  | nil => rfl
  | cons x xs ih =>
    rw [List.map_cons, List.map_cons, keep, ih]
    cases hp : p x <;> simp [hp]

theorem zipWith_maps {α β γ δ : Type} (f : β → γ → δ) (g : α → β) (h : α → γ) (xs : List α) :
    List.zipWith f (xs.map g) (xs.map h) = xs.map fun x => f (g x) (h x) := by
  induction xs with
  | nil => rfl
  | cons x xs ih => simp [ih]

/-- Parallel instances with the states they would have alone. -/
def aligned (t : Trig K) (c : Config K) (u : Physics K) (us : List (State K)) (choice : Nat → Choice K) (n : Nat) : Env K :=
  { parallel := true, indices := running t c u us choice n, physics := drawPhysics c u,
    states := (running t c u us choice n).map fun k => soloState t c u us choice k n }

theorem reset_aligned : reset c true u us = aligned t c u us choice 0 := by
  have hr : running t c u us choice 0 = List.range us.length := by
    rw [running, List.filter_eq_self]
    intro k hk
    rw [List.mem_range] at hk
    simp [alone, hk]
  rw [reset, aligned, hr]
  congr 1
  apply List.ext_getElem
  · simp
  · intro i h1 h2
    simp only [List.length_map] at h1
    simp [soloState, alone, h1, reset]

theorem running_succ (hc : ∀ n, (choice n).ok c) (n : Nat) : running t c u us choice (n + 1) =
    (running t c u us choice n).filter fun k => !terminal c.bounds (next t c (drawPhysics c u) (choice n) k (soloState t c u us choice k n)) := by
  rw [running, running, List.filter_filter]
  apply List.filter_congr
  intro k _
  cases h : (alone t c u us choice k n).isSome with
  | false =>
    cases h' : (alone t c u us choice k (n + 1)).isSome with
    | false => simp
    | true => rw [alone_prev h'] at h; cases h
  | true =>
    rw [alone_succ hc h]
    cases terminal c.bounds (next t c (drawPhysics c u) (choice n) k (soloState t c u us choice k n)) <;> simp

theorem soloState_succ (hc : ∀ n, (choice n).ok c) {k n : Nat} (hk : k ∈ running t c u us choice (n + 1)) :
    soloState t c u us choice k (n + 1) = next t c (drawPhysics c u) (choice n) k (soloState t c u us choice k n) := by
  have h1 : (alone t c u us choice k (n + 1)).isSome = true := (List.mem_filter.mp hk).2
  have h2 := alone_succ hc (alone_prev h1)
  rw [soloState, h2]
  by_cases hd : terminal c.bounds (next t c (drawPhysics c u) (choice n) k (soloState t c u us choice k n)) = true
  · rw [h2, if_pos hd] at h1
    cases h1
  · rw [if_neg hd]
    rfl

/-- A step of all instances. -/
theorem execute_aligned (hc : ∀ n, (choice n).ok c) (n : Nat) :
    execute t c (aligned t c u us choice n) ((choice n).actions (aligned t c u us choice n).indices) =
      .ok (aligned t c u us choice (n + 1),
        { indices := running t c u us choice (n + 1),
          states := (running t c u us choice (n + 1)).map fun k => c.view (soloState t c u us choice k (n + 1)),
          terminal := (running t c u us choice n).map fun k => (alone t c u us choice k (n + 1)).isNone,
          rewards := (running t c u us choice n).map fun _ => 1 }) := by
  have hst : (running t c u us choice (n + 1)).map (fun k => soloState t c u us choice k (n + 1)) =
      (running t c u us choice (n + 1)).map fun k => next t c (drawPhysics c u) (choice n) k (soloState t c u us choice k n) :=
    List.map_congr_left fun k hk => soloState_succ hc hk
  have hterm : (running t c u us choice n).map (fun k => (alone t c u us choice k (n + 1)).isNone) =
      (running t c u us choice n).map fun k => terminal c.bounds (next t c (drawPhysics c u) (choice n) k (soloState t c u us choice k n)) := by
    apply List.map_congr_left
    intro k hk
    rw [alone_succ hc (List.mem_filter.mp hk).2]
    cases terminal c.bounds (next t c (drawPhysics c u) (choice n) k (soloState t c u us choice k n)) <;> simp
  have hview : (running t c u us choice (n + 1)).map (fun k => c.view (soloState t c u us choice k (n + 1))) =
      ((running t c u us choice (n + 1)).map fun k => soloState t c u us choice k (n + 1)).map c.view := by rw [List.map_map]; rfl
  rw [hview, hterm, aligned, aligned, hst, running_succ hc, execute]
  dsimp only
  rw [forces_eq _ (hc n)]
  dsimp only
  rw [broadcast_eq (by simp)]
  dsimp only
  rw [zipWith_maps, List.map_map, List.map_map]
  have hk1 := keep_map (fun k => terminal c.bounds (next t c (drawPhysics c u) (choice n) k (soloState t c u us choice k n)))
    (fun k => next t c (drawPhysics c u) (choice n) k (soloState t c u us choice k n)) (running t c u us choice n)
  have hk2 := keep_map (fun k => terminal c.bounds (next t c (drawPhysics c u) (choice n) k (soloState t c u us choice k n)))
    (fun k => k) (running t c u us choice n)
  rw [List.map_id', List.map_id'] at hk2
  rw [if_pos rfl, ← hk1, ← hk2]
  rfl

theorem together_aligned (hc : ∀ n, (choice n).ok c) (n : Nat) : together t c u us choice n = .ok (aligned t c u us choice n) := by
  induction n with
  | zero => rw [together, reset_aligned]
  | succ n ih =>
    rw [together, ih]
    dsimp only
    rw [execute_aligned hc]

end

end Verif.Cart
