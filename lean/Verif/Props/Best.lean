import Verif.Runner.BestLemmas

/-! # C39: the saved agent is the best one -/

namespace Verif.Props.Best

open Verif.Runner.Best

/-- The saved agent is from an evaluation whose score no other exceeds. -/
def KeepsBest (scores : List Score) (s : State) : Prop :=
  ∃ k b, s.saved = some k ∧ scores[k]? = some (some b) ∧ ∀ x, some x ∈ scores → x ≤ b

/-- The agent of the first evaluation is never saved; otherwise the one saved is the first of those with the largest score. -/
theorem best_partial (scores : List Rat) (k : Nat) :
    (run (scores.map some)).saved = some k ↔ 0 < k ∧ FirstBest scores k := by
  have h := run_inv scores
  by_cases hl : scores = []
  · subst hl
    constructor
    · intro h; cases h
    · rintro ⟨-, b, hb, -⟩; simp at hb
  · obtain ⟨j, b, -, -, hj, hs⟩ := h.best hl
    rw [hs]
    by_cases h0 : j = 0
    · rw [if_pos h0]
      constructor
      · intro h; cases h
      · rintro ⟨hpos, hk⟩; have := firstBest_unique hj hk; omega
    · rw [if_neg h0]
      constructor
      · intro h; cases h; exact ⟨by omega, hj⟩
      · rintro ⟨_, hk⟩; rw [firstBest_unique hj hk]

/-- So the property holds if some later score exceeds the first one. -/
theorem exceeded_partial (scores : List Rat) (a : Rat) (ha : scores[0]? = some a) (h : ∃ x ∈ scores, a < x) :
    KeepsBest (scores.map some) (run (scores.map some)) := by
  have hl : scores ≠ [] := by rintro rfl; simp at ha
  obtain ⟨j, b, -, hjb, hj, hs⟩ := (run_inv scores).best hl
  obtain ⟨b', hb', hmax, -⟩ := id hj
  obtain ⟨x, hx, hax⟩ := h
  obtain ⟨i, hi⟩ := List.mem_iff_getElem?.mp hx
  have h0 : j ≠ 0 := by
    rintro rfl
    have h1 := hmax i x hi
    rw [ha] at hb'
    cases hb'
    grind
  rw [if_neg h0] at hs
  refine ⟨j, b', hs, by simp [hb'], fun y hy => ?_⟩
  simp at hy
  obtain ⟨i, hi⟩ := List.mem_iff_getElem?.mp hy
  exact hmax i y hi

example : KeepsBest ([5, 3, 7, 7, 6].map some) (run (([5, 3, 7, 7, 6] : List Rat).map some)) :=
  exceeded_partial _ 5 rfl ⟨7, by simp, by decide +kernel⟩

/-- The agent of the first evaluation is not saved even if it is the best: nothing is, however long the run. -/
theorem first_best_violation (a : Rat) (scores : List Rat) (h : ∀ x ∈ scores, x ≤ a) : (run ((a :: scores).map some)).saved = none := by
  cases hs : (run ((a :: scores).map some)).saved with
  | none => rfl
  | some k =>
    have := (best_partial (a :: scores) k).mp hs
    obtain ⟨hpos, b, hb, -, hf⟩ := this
    have h1 := hf 0 a rfl hpos
    have hmem : b ∈ scores := by
      cases k with
      | zero => omega
      | succ k => exact List.mem_iff_getElem?.mpr ⟨k, by simpa using hb⟩
    have := h b hmem
    grind

example : (run [some 5, some 3]).saved = none := first_best_violation 5 [3] (by simp; decide +kernel)
example : ¬ KeepsBest [some 5, some 3] (run [some 5, some 3]) := by
  rintro ⟨k, b, h, -⟩
  rw [show (run [some 5, some 3]).saved = none from by decide +kernel] at h
  cases h

/-- After a first score that is not a number nothing is saved any more. -/
theorem nan_violation (scores : List Score) : (run (none :: scores)).saved = none := by
  have key : ∀ (l : List Score) (s : State), s.best = some none → s.saved = none → (l.foldl step s).saved = none := by
    intro l
    induction l with
    | nil => intro s _ h; exact h
    | cons x l ih =>
      intro s hb hs
      have h1 : step s x = { s with evaluations := s.evaluations + 1 } := by
        unfold step
        rw [hb]
        dsimp only
        rw [if_neg (by cases x <;> simp [gt])]
      rw [List.foldl_cons, h1]
      exact ih _ hb hs
  exact key scores _ rfl rfl

/-- A further call of `run` overwrites a better agent of an earlier one. -/
theorem second_run_violation : (runs [[some 1, some 9], [some 2, some 3]]).saved = some 3 := by decide +kernel

/-- Without a callback the score is the mean of the last `mean_horizon` returns: the last return by default. -/
theorem default_score (returns : List Rat) (r : Rat) : score 1 none (returns ++ [r]) = r := by
  have : lastOf 1 (returns ++ [r]) = [r] := by simp [lastOf]
  simp only [score, this]
  simp
  grind

theorem callback_score (h : Nat) (r : Rat) (returns : List Rat) : score h (some r) returns = r := rfl

example : score 2 none [9, 1, 3] = 2 := by decide +kernel

end Verif.Props.Best
