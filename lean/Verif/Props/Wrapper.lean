import Verif.Env.Wrapper

/-!
# Property C17: the episode length limit

Histories are arbitrary lists of `reset` and `execute` calls on an arbitrary environment (which may raise); the events
record what was returned.
-/

namespace Verif.Props.Wrapper

open Verif.Env

variable {σ S A R : Type}

/-- A reset call. -/
def isReset : Event S A R → Bool
  | .reset _ => true
  | .execute .. => false

/-- An `execute` call that returned normally. -/
def isStep : Event S A R → Bool
  | .execute _ _ (.ok _) => true
  | _ => false

/-- An `execute` call that returned an episode end. -/
def isEnd : Event S A R → Bool
  | .execute _ _ (.ok (_, t, _)) => decide (t > 0)
  | _ => false

/-- Number of normally returned `execute` calls since the last reset. -/
def steps (past : List (Event S A R)) : Nat :=
  past.foldl (fun n x => if isReset x then 0 else if isStep x then n + 1 else n) 0

/-- An episode is running: there was a reset, and no episode end since. -/
def running (past : List (Event S A R)) : Bool :=
  past.foldl (fun b x => if isReset x then true else if isEnd x then false else b) false

theorem steps_snoc (past : List (Event S A R)) (x : Event S A R) :
    steps (past ++ [x]) = if isReset x then 0 else if isStep x then steps past + 1 else steps past := by
  simp [steps, List.foldl_append]

theorem running_snoc (past : List (Event S A R)) (x : Event S A R) :
    running (past ++ [x]) = if isReset x then true else if isEnd x then false else running past := by
  simp [running, List.foldl_append]

/-- The timestep counter is the number of steps of the running episode. -/
structure Inv (m : Option Nat) (w : Wrapper σ S) (past : List (Event S A R)) : Prop where
  limit : w.limit = m
  timestep : w.timestep = if running past then some (steps past) else none
  bound : ∀ k, m = some k → steps past ≤ k

theorem inner_timestep (e : Inner σ S A R) (w : Wrapper σ S) (a : A) :
    (w.inner e a).1.timestep = w.timestep ∧ (w.inner e a).1.limit = w.limit := by
  simp only [Wrapper.inner]
  repeat' split
  all_goals exact ⟨rfl, rfl⟩

/-- What a call may return after the events `past`. -/
def Allowed (m : Option Nat) (past : List (Event S A R)) : Event S A R → Prop
  | .reset _ => True
  | .execute _ raw result =>
    if running past = false then result = .error .notReset
    else match result with
      | .error _ => True
      | .ok (_, t, _) => ∃ c, raw = some c ∧
          if c ≠ 0 then t = c
          else match m with
            | none => t = 0
            | some k => steps past + 1 ≤ k ∧ (steps past + 1 < k → t = 0) ∧ (steps past + 1 = k → t = 2)

/-- Every event of a trace is allowed after the events before it. -/
def AllAllowed (m : Option Nat) : List (Event S A R) → List (Event S A R) → Prop
  | _, [] => True
  | past, x :: xs => Allowed m past x ∧ AllAllowed m (past ++ [x]) xs

theorem step_inv (e : Inner σ S A R) (m : Option Nat) (w : Wrapper σ S) (past : List (Event S A R)) (o : Op A)
    (h : Inv m w past) : Inv m (w.step e o).1 (past ++ [(w.step e o).2]) ∧ Allowed m past (w.step e o).2 := by
  obtain ⟨hl, ht, hb⟩ := h
  cases o with
  | reset =>
    refine ⟨⟨?_, ?_, ?_⟩, trivial⟩
    · simp only [Wrapper.step, Wrapper.reset]; repeat' split
      all_goals exact hl
    · rw [running_snoc, steps_snoc]
      simp only [Wrapper.step, Wrapper.reset, isReset, if_true]; repeat' split
      all_goals rfl
    · intro k _; rw [steps_snoc]; simp [Wrapper.step, isReset]
  | execute a =>
    simp only [Wrapper.step]
    cases hr : running past with
    | false =>
      rw [hr] at ht
      simp only [Bool.false_eq_true, if_false] at ht
      have he : w.execute e a = (w, none, .error .notReset) := by unfold Wrapper.execute; rw [ht]
      rw [he]
      refine ⟨⟨hl, ?_, ?_⟩, ?_⟩
      · rw [running_snoc]; simpa [isReset, isEnd, hr] using ht
      · intro k hk; rw [steps_snoc]; simpa [isReset, isStep] using hb k hk
      · simp [Allowed, hr]
    | true =>
      rw [hr] at ht
      simp only [if_true] at ht
      by_cases hlim : atLimit w.limit (steps past) = true
      · have he : w.execute e a = (w, none, .error .assertion) := by
          unfold Wrapper.execute; rw [ht]; simp only [hlim, if_true]
        rw [he]
        refine ⟨⟨hl, ?_, ?_⟩, ?_⟩
        · rw [running_snoc, steps_snoc]; simpa [isReset, isEnd, isStep, hr] using ht
        · intro k hk; rw [steps_snoc]; simpa [isReset, isStep] using hb k hk
        · simp [Allowed, hr]
      · have hin := inner_timestep e w a
        have hlt : ∀ k, m = some k → steps past < k := by
          intro k hk
          rw [hl, hk] at hlim
          simp [atLimit] at hlim
          exact hlim
        rcases hi : w.inner e a with ⟨w', _ | ⟨s, c, r⟩⟩
        · have he : w.execute e a = (w', none, .error ‹_›) := by
            unfold Wrapper.execute; rw [ht]; simp only [hlim, hi, Bool.false_eq_true, if_false]
          rw [he]
          rw [hi] at hin
          refine ⟨⟨hin.2.trans hl, ?_, ?_⟩, ?_⟩
          · rw [running_snoc, steps_snoc]; simpa [isReset, isEnd, isStep, hr] using hin.1.trans ht
          · intro k hk; rw [steps_snoc]; simpa [isReset, isStep] using hb k hk
          · simp [Allowed, hr]
        · have he : w.execute e a =
              ((w'.finish (steps past) c).1, some c, .ok (s, (w'.finish (steps past) c).2, r)) := by
            unfold Wrapper.execute; rw [ht]; simp only [hlim, hi, Bool.false_eq_true, if_false]
          rw [he]
          rw [hi] at hin
          refine ⟨⟨hin.2.trans hl, ?_, ?_⟩, ?_⟩
          · rw [running_snoc, steps_snoc]
            simp only [isReset, isEnd, isStep, hr, Wrapper.finish, Bool.false_eq_true, if_false, if_true]
            split
            · simp
            · by_cases hc : c > 0
              · simp [hc]
              · simp [hc]
          · intro k hk; rw [steps_snoc]; simp only [isReset, isStep, Bool.false_eq_true, if_false, if_true]
            exact hlt k hk
          · simp only [Allowed, hr, Bool.true_eq_false, if_false]
            refine ⟨c, rfl, ?_⟩
            simp only [Wrapper.finish]
            by_cases hc : c = 0
            · rw [if_neg (by simpa using hc)]
              rw [hin.2, hl]
              cases m with
              | none => simp [atLimit, hc]
              | some k =>
                have := hlt k rfl
                simp only [atLimit, hc, true_and, decide_eq_true_eq]
                refine ⟨by omega, ?_, ?_⟩
                · intro h; rw [if_neg (by omega)]
                · intro h; rw [if_pos (by omega)]
            · rw [if_pos hc, if_neg (by simp [hc])]

theorem run_inv (e : Inner σ S A R) (m : Option Nat) (ops : List (Op A)) (w : Wrapper σ S)
    (past : List (Event S A R)) (h : Inv m w past) :
    Inv m (w.run e ops).1 (past ++ (w.run e ops).2) ∧ AllAllowed m past (w.run e ops).2 := by
  induction ops generalizing w past with
  | nil => simpa [Wrapper.run, AllAllowed] using h
  | cons o ops ih =>
    obtain ⟨h1, h2⟩ := step_inv e m w past o h
    obtain ⟨h3, h4⟩ := ih _ _ h1
    refine ⟨?_, h2, h4⟩
    simpa [Wrapper.run] using h3

/-- **C17.** In every history: `execute` raises unless an episode is running; the returned code is the environment's
own if it is not zero, otherwise 0 before step number `m` and 2 at step number `m`, and there is no step after it. -/
theorem limit_enforced_partial (e : Inner σ S A R) (env : σ) (m : Option Nat) (ops : List (Op A)) :
    AllAllowed m [] ((Wrapper.init env m : Wrapper σ S).run e ops).2 := by
  have h0 : Inv m (Wrapper.init env m : Wrapper σ S) ([] : List (Event S A R)) :=
    ⟨rfl, rfl, fun k _ => Nat.zero_le _⟩
  exact (run_inv e m ops _ _ h0).2

theorem foldl_steps (n : Nat) (B : List (Event S A R)) (hB : ∀ x ∈ B, isReset x = false) :
    B.foldl (fun n x => if isReset x then 0 else if isStep x then n + 1 else n) n = n + B.countP isStep := by
  induction B generalizing n with
  | nil => rfl
  | cons x B ih =>
    have hx := hB x (by simp)
    simp only [List.foldl_cons, hx, Bool.false_eq_true, if_false]
    rw [ih _ (fun y hy => hB y (by simp [hy])), List.countP_cons]
    split <;> omega

/-- **C17.** Between two resets at most `m` steps are made, whatever the environment and the calls. -/
theorem at_most_m_steps (e : Inner σ S A R) (env : σ) (m : Nat) (ops : List (Op A)) (P Q T : List (Event S A R))
    (hrun : ((Wrapper.init env (some m) : Wrapper σ S).run e ops).2 = P ++ Q ++ T)
    (hQ : ∀ x ∈ Q, isReset x = false) : Q.countP isStep ≤ m := by
  -- the bound holds at every prefix
  have pre : ∀ (ops : List (Op A)) (w : Wrapper σ S) (past P T : List (Event S A R)), Inv (some m) w past →
      (w.run e ops).2 = P ++ T → steps (past ++ P) ≤ m := by
    intro ops
    induction ops with
    | nil =>
      intro w past P T h hr
      simp [Wrapper.run] at hr
      simpa [hr.1] using h.bound m rfl
    | cons o ops ih =>
      intro w past P T h hr
      cases P with
      | nil => simpa using h.bound m rfl
      | cons x P =>
        simp only [Wrapper.run, List.cons_append, List.cons.injEq] at hr
        have := ih _ _ P T (step_inv e (some m) w past o h).1 hr.2
        rw [hr.1] at this
        simpa using this
  have h0 : Inv (some m) (Wrapper.init env (some m) : Wrapper σ S) ([] : List (Event S A R)) :=
    ⟨rfl, rfl, fun k _ => Nat.zero_le _⟩
  have := pre ops _ [] (P ++ Q) T h0 hrun
  rw [List.nil_append, steps, List.foldl_append, foldl_steps _ _ hQ] at this
  omega

/-- **C17.** A step that is refused because no episode is running or the limit is reached does not reach the
environment. -/
theorem refused_untouched (e : Inner σ S A R) (w : Wrapper σ S) (a : A)
    (h : (w.execute e a).2.2 = .error .notReset ∨ (w.execute e a).2.2 = .error .assertion) : (w.execute e a).1 = w := by
  unfold Wrapper.execute at h ⊢
  have hne : ∀ w' er, w.inner e a = (w', .error er) → er ≠ .notReset ∧ er ≠ .assertion := by
    intro w' er
    simp only [Wrapper.inner]
    repeat' split
    all_goals intro h; simp only [Prod.mk.injEq, Except.error.injEq, reduceCtorEq, and_false] at h
    all_goals obtain ⟨_, rfl⟩ := h
    all_goals simp
  split
  · rfl
  · rename_i t ht
    rw [ht] at h
    simp only at h
    split
    · rfl
    · rename_i hlim
      rw [if_neg hlim] at h
      cases hi : w.inner e a with
      | mk w' res =>
        cases res with
        | error er =>
          rw [hi] at h
          have := hne w' er hi
          simp_all
        | ok v => rw [hi] at h; simp at h

/-- **C17.** The limit in force never exceeds the one the environment declares, and is the given one if given. -/
theorem wrapLimit_spec (envMax given m : Option Nat) (h : wrapLimit envMax given = .ok m) :
    (∀ g, given = some g → m = some g) ∧ (given = none → m = envMax) ∧
      ∀ k, envMax = some k → ∃ j, m = some j ∧ j ≤ k := by
  unfold wrapLimit at h
  split at h
  · split at h
    · simp at h
    · simp at h; subst h; simp; omega
  · simp at h; subst h; simp
  · simp at h; subst h
    refine ⟨by simp, by simp, fun k hk => ⟨k, hk, Nat.le_refl _⟩⟩

/-- **C17**, vectorized: with codes in {0, 1, 2}, at the limit every actor has ended and a reset is required; before the
limit nothing is changed. -/
theorem limit_enforced_vectorized_partial (limit : Option Nat) (t : Nat) (ts : List Int) (hts : ∀ x ∈ ts, 0 ≤ x) :
    (atLimit limit (t + 1) = true → (finishVec limit t ts).1 = none ∧
        (finishVec limit t ts).2.1 = ts.map (fun x => if x = 0 then 2 else x)) ∧
      (atLimit limit (t + 1) = false → (finishVec limit t ts).2.1 = ts ∧ (finishVec limit t ts).2.2 = false ∧
        ((finishVec limit t ts).1 = none ↔ ∀ x ∈ ts, x > 0)) := by
  constructor
  · intro h
    simp only [finishVec, h, Bool.and_true]
    by_cases ha : ts.any (· == 0) = true
    · simp only [ha, if_true, and_true]
      rw [if_pos]
      simp only [List.all_eq_true, List.mem_map, decide_eq_true_eq]
      rintro x ⟨y, hy, rfl⟩
      have := hts y hy
      split <;> omega
    · simp only [ha, Bool.false_eq_true, if_false]
      have hn : ∀ x ∈ ts, x ≠ 0 := by
        intro x hx h0
        apply ha
        simp only [List.any_eq_true, beq_iff_eq]
        exact ⟨x, hx, h0⟩
      refine ⟨?_, ?_⟩
      · rw [if_pos]
        simp only [List.all_eq_true, decide_eq_true_eq]
        intro x hx
        have := hts x hx
        have := hn x hx
        omega
      · conv => lhs; rw [← List.map_id ts]
        apply List.map_congr_left
        intro x hx
        simp [hn x hx]
  · intro h
    simp [finishVec, h]

/-! Non-vacuity: an environment that never ends, and one that raises and ends. -/

/-- Counts its steps; action 0 raises, action 1 ends the episode. -/
def exInner : Inner Nat Nat Nat Nat :=
  { reset := fun _ => (0, some 0)
    execute := fun s a => if a = 0 then (s, none) else (s + 1, some (s + 1, if a = 1 then 1 else 0, a))
    shape := none
    statesOk := fun _ => true }

/-- The returned codes of a history. -/
def codes : List (Event Nat Nat Nat) → List (Option Int)
  | [] => []
  | .reset _ :: L => some (-1) :: codes L
  | .execute _ _ (.ok (_, t, _)) :: L => some t :: codes L
  | .execute _ _ (.error _) :: L => none :: codes L

example : codes ((Wrapper.init 0 (some 3) : Wrapper Nat Nat).run exInner
    [.execute 2, .reset, .execute 2, .execute 0, .execute 2, .execute 2, .execute 2, .reset, .execute 2, .execute 1,
      .execute 2]).2 =
    [none, some (-1), some 0, none, some 0, some 2, none, some (-1), some 0, some 1, none] := by decide

/-- A code below zero (possible from a reward-shaping function, or after the first step, whose output alone is
checked) is neither an end nor turned into an abort: the limit then shows up as an assertion failure. -/
theorem negative_code_not_aborted :
    codes ((Wrapper.init 0 (some 2) : Wrapper Nat Nat).run
      { exInner with shape := some fun s _ _ _ r _ => (s, some (r, some (-1))) }
      [.reset, .execute 2, .execute 2, .execute 2]).2 = [some (-1), some (-1), some (-1), none] := by decide

end Verif.Props.Wrapper
