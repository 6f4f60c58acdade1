import Verif.Optim.Sync

/-! # Properties of target network synchronization (C35) -/

namespace Verif.Props.Sync

open Verif.Optim Verif.Optim.Sync Vec

variable {n : Nat}

theorem isConst_value {α : Type} [DecidableEq α] {h : Hyper α} {a : α} (hc : h.isConst a = true) (t : Nat) : h.value t = a := by
  cases h with
  | const b => simpa [Hyper.isConst, Hyper.value] using hc
  | sched f => simp [Hyper.isConst] at hc

theorem applySync_target (c : Config) (t : Nat) (source : Vec n) (s : State n) :
    (applySync c t source s).1.target = moved c t source s.target := by
  funext i
  unfold applySync
  split
  case isTrue h => simp only [moved, isConst_value h]; grind
  case isFalse h => simp only [moved, add, scale, sub]

theorem applySync_next (c : Config) (t : Nat) (source : Vec n) (s : State n) (h : c.frequency.isConst 1 = false) :
    (applySync c t source s).1.next = c.frequency.value t := by
  unfold applySync
  split <;> simp [reload, h]

theorem step_apply (c : Config) (t : Nat) (source : Vec n) (s : State n) (h : c.frequency.isConst 1 = false) (hn : s.next ≤ 1) :
    step c t source s = applySync c t source s := by
  unfold step
  rw [if_neg (by rw [h]; decide), if_neg (by omega)]

theorem step_skip (c : Config) (t : Nat) (source : Vec n) (s : State n) (h : c.frequency.isConst 1 = false) (hn : 1 < s.next) :
    step c t source s = noSync s := by
  unfold step
  rw [if_neg (by rw [h]; decide), if_pos (by omega)]

/-- Weight 1: the target equals the source. -/
theorem moved_one (c : Config) (t : Nat) (source target : Vec n) (h : c.weight.value t = 1) : moved c t source target = source := by
  funext i; simp only [moved, h]; grind

/-- The step returned is the change of the variables. -/
theorem sync_reports (c : Config) (t : Nat) (source : Vec n) (s : State n) :
    (step c t source s).1.target = add s.target (step c t source s).2 := by
  have h : (applySync c t source s).1.target = add s.target (applySync c t source s).2 := by
    funext i
    unfold applySync
    split
    · simp only [add, sub]; grind
    · rfl
  unfold step
  split
  · exact h
  · split
    · funext i; simp only [noSync, add, Vec.zero]; grind
    · exact h

/-- The countdown: while the frequency is constant `f`, before update `t` it is zero for `t = 0` and otherwise `f - (t - 1) % f`. -/
theorem countdown (c : Config) (f : Nat) (hf : 1 < f) (hc : c.frequency = .const (f : Int)) (sources : Nat → Vec n) (target : Vec n)
    (t : Nat) : (before c sources target (t + 1)).next = (f : Int) - ((t % f : Nat) : Int) := by
  have h1 : c.frequency.isConst 1 = false := by rw [hc]; simp only [Hyper.isConst, decide_eq_false_iff_not]; omega
  have hv : ∀ s : State n, ∀ t, (applySync c t (sources t) s).1.next = (f : Int) := fun s t => by
    rw [applySync_next _ _ _ _ h1, hc]; rfl
  induction t with
  | zero =>
    rw [before, step_apply _ _ _ _ h1 (by simp [before]), hv, Nat.zero_mod]; omega
  | succ t ih =>
    have hm : (t + 1) % f = if t % f + 1 = f then 0 else t % f + 1 := by
      have hlt := Nat.mod_lt t (by omega : 0 < f)
      split
      case isTrue h => rw [Nat.add_mod, Nat.mod_eq_of_lt hf, h, Nat.mod_self]
      case isFalse h => rw [Nat.add_mod, Nat.mod_eq_of_lt hf, Nat.mod_eq_of_lt (by omega)]
    have hlt := Nat.mod_lt t (by omega : 0 < f)
    rw [before, hm]
    by_cases he : t % f + 1 = f
    · rw [if_pos he, step_apply _ _ _ _ h1 (by omega), hv]; omega
    · rw [if_neg he, step_skip _ _ _ _ h1 (by omega)]
      simp only [noSync, ih]; omega

/-- C35: with constant frequency `f`, update number `t` (from zero) synchronises if `t` is a multiple of `f` and leaves the target
unchanged otherwise, for all source values and weights. Missing: rounding of floats for a weight that is not constant
(`Verif.Props.OptimFloat.weight_one_violation`). -/
theorem schedule_partial (c : Config) (f : Nat) (hf : 0 < f) (hc : c.frequency = .const (f : Int)) (sources : Nat → Vec n)
    (target : Vec n) (t : Nat) :
    (before c sources target (t + 1)).target =
      if t % f = 0 then moved c t (sources t) (before c sources target t).target else (before c sources target t).target := by
  rw [before]
  by_cases h1 : f = 1
  · have hs : c.frequency.isConst 1 = true := by rw [hc, h1]; rfl
    rw [h1, if_pos (Nat.mod_one t)]
    simp only [step, hs, if_true]
    exact applySync_target ..
  · have hs : c.frequency.isConst 1 = false := by rw [hc]; simp only [Hyper.isConst, decide_eq_false_iff_not]; omega
    cases t with
    | zero => rw [if_pos (Nat.zero_mod f), step_apply _ _ _ _ hs (by simp [before])]; exact applySync_target ..
    | succ t =>
      have hlt := Nat.mod_lt t (by omega : 0 < f)
      have hm : (t + 1) % f = if t % f + 1 = f then 0 else t % f + 1 := by
        split
        case isTrue h => rw [Nat.add_mod, Nat.mod_eq_of_lt (by omega : 1 < f), h, Nat.mod_self]
        case isFalse h => rw [Nat.add_mod, Nat.mod_eq_of_lt (by omega : 1 < f), Nat.mod_eq_of_lt (by omega)]
      have hn := countdown c f (by omega) hc sources target t
      rw [hm]
      by_cases he : t % f + 1 = f
      · rw [if_pos he, step_apply _ _ _ _ hs (by omega), if_pos rfl]; exact applySync_target ..
      · rw [if_neg he, step_skip _ _ _ _ hs (by omega), if_neg (by omega)]; rfl

/-- C35, weight 1: after update `1 + k f` the target is the source of that update until the next synchronization. -/
theorem weight_one (c : Config) (f : Nat) (hf : 0 < f) (hc : c.frequency = .const (f : Int)) (hw : c.weight = .const 1)
    (sources : Nat → Vec n) (target : Vec n) (t : Nat) : (before c sources target (t + 1)).target = sources (t / f * f) := by
  induction t with
  | zero =>
    rw [schedule_partial c f hf hc, if_pos (Nat.zero_mod f), moved_one c _ _ _ (by rw [hw]; rfl), Nat.zero_div, Nat.zero_mul]
  | succ t ih =>
    rw [schedule_partial c f hf hc]
    by_cases hm : (t + 1) % f = 0
    · rw [if_pos hm, moved_one c _ _ _ (by rw [hw]; rfl), Nat.div_mul_cancel (Nat.dvd_of_mod_eq_zero hm)]
    · rw [if_neg hm, ih, Nat.succ_div_of_not_dvd fun h => hm (Nat.mod_eq_zero_of_dvd h)]

/-- A scheduled frequency: after a synchronization at update `t` with value `f`, the next `f - 1` updates leave the target unchanged and
the one after synchronises. -/
theorem scheduled (c : Config) (hc : c.frequency.isConst 1 = false) (sources : Nat → Vec n) (target : Vec n) (t f : Nat)
    (hv : c.frequency.value t = (f : Int)) (hs : (before c sources target t).next ≤ 1) :
    (∀ k, k < f - 1 → (before c sources target (t + 1 + k + 1)).target = (before c sources target (t + 1 + k)).target) ∧
    (before c sources target (t + 1 + (f - 1))).next ≤ 1 ∧
    ∀ u, (before c sources target u).next ≤ 1 →
      (before c sources target (u + 1)).target = moved c u (sources u) (before c sources target u).target := by
  have hn : ∀ k, k ≤ f - 1 → (before c sources target (t + 1 + k)).next = (f : Int) - (k : Int) := by
    intro k
    induction k with
    | zero =>
      intro _
      rw [Nat.add_zero, before, step_apply _ _ _ _ hc hs, applySync_next _ _ _ _ hc, hv]; omega
    | succ k ih =>
      intro hk
      have := ih (by omega)
      rw [← Nat.add_assoc, before, step_skip _ _ _ _ hc (by omega)]
      simp only [noSync, ih (by omega)]; omega
  refine ⟨fun k hk => ?_, ?_, fun u hu => ?_⟩
  · have := hn k (by omega)
    rw [before, step_skip _ _ _ _ hc (by omega)]; rfl
  · rw [hn (f - 1) (Nat.le_refl _)]; omega
  · rw [before, step_apply _ _ _ _ hc hu]
    exact applySync_target ..

/-- Frequency 3, weight 1/2, source counting updates. -/
example : (List.range 8).map (fun t => (before (n := 1) ⟨.const (1/2), .const 3⟩ (fun t _ => (t : Rat) + 8) (fun _ => 0) t).target 0) =
    [0, 4, 4, 4, 15/2, 15/2, 15/2, 43/4] := by decide +kernel

/-- A schedule that shortens the interval from 3 to 1. -/
example : (List.range 8).map (fun t => (before (n := 1) ⟨.const 1, .sched fun t => if t < 2 then 3 else 1⟩ (fun t _ => (t : Rat) + 8)
    (fun _ => 0) t).target 0) = [0, 8, 8, 8, 11, 12, 13, 14] := by decide +kernel

end Verif.Props.Sync
