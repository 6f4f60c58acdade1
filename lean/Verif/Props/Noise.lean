import Verif.Session.NoiseLemmas
import Verif.Optim.Float
import Mathlib.Algebra.Order.Ring.Rat
import Mathlib.Tactic.Linarith
import Mathlib.Tactic.NormNum
import Mathlib.Tactic.Ring

/-!
# Property C68: acting with variable noise leaves the variables unchanged

* `noise_removed_partial`: the variables after acting equal those before, in exact arithmetic and if acting does not raise;
  otherwise they do not (`rounding_violation`, `exception_violation`).
* `noise_drift_partial`: how far rounding can move a variable.
* `noise_applied`: the policy acts with the variables plus the standard deviation times the normal numbers.
* `noise_deterministic`, `noise_zero`: no noise if deterministic, or if the noise is zero.
-/

namespace Verif.Props.Noise

open Verif.Session

variable {K : Type} [Field K] [LinearOrder K] [IsStrictOrderedRing K] {β : Type}

/-- The parameter reports consistently: if it is constantly zero, its value and its final value are zero. -/
def Consistent (q : NoiseParam K) : Prop := q.constantZero = true → q.value = 0 ∧ q.final = 0

/-- Noise at present one half, one quarter in the end. -/
def param : NoiseParam ℚ := ⟨false, 1 / 2, 1 / 4⟩

/-- An actor for examples: it tells its variables; it raises if there are none. -/
def tell (vs : List ℚ) : Option (List ℚ) := if vs.isEmpty then none else some vs

/-- With exact arithmetic the variables after an act which does not raise equal those before. Missing: rounding, and acts which
raise. -/
theorem noise_removed_partial (q : NoiseParam K) (independent deterministic : Bool) (draws vars : List K) (body : List K → Option β)
    (hlen : draws.length = vars.length) {b : β}
    (hb : (noisyAct id q independent deterministic draws body vars).1 = some b) :
    (noisyAct id q independent deterministic draws body vars).2 = vars := by
  unfold noisyAct at hb ⊢
  by_cases ha : noiseActive q independent vars = true
  · simp only [ha, if_true] at hb ⊢
    cases hbody : body (noisyVars id (noiseAmount q independent) deterministic vars draws) with
    | none => rw [hbody] at hb; cases hb
    | some c =>
      dsimp only
      unfold reversedVars noisyVars noiseTensors
      by_cases h0 : noiseAmount q independent = 0
      · simp [h0]
      · cases deterministic with
        | true => simpa [h0] using zip_zero vars
        | false =>
          simp only [h0, decide_false, Bool.or_false, Bool.false_eq_true, if_false]
          apply zip_cancel
          simp [hlen]
  · simp only [ha, if_false, Bool.false_eq_true]

example : noisyAct id param false false [1, -1] tell [3, 4] = (some [7 / 2, 7 / 2], [3, 4]) := by
  simp [noisyAct, noiseActive, noiseAmount, noiseTensors, noisyVars, reversedVars, param, tell]; norm_num

/-- In single precision a variable may be lost: noise one, added to and subtracted from a small variable, leaves zero. -/
theorem rounding_violation : ∃ (q : NoiseParam ℚ) (draws vars : List ℚ) (body : List ℚ → Option (List ℚ)) (b : List ℚ),
    (∀ v ∈ vars, Verif.Optim.Float.round32 v = v) ∧ draws.length = vars.length ∧
      noisyAct Verif.Optim.Float.round32 q false false draws body vars = (some b, [0]) ∧ vars = [1 / 2 ^ 30] := by
  refine ⟨⟨false, 1, 1⟩, [1], [1 / 2 ^ 30], tell, [1], ?_, rfl, ?_, rfl⟩
  · decide +kernel
  · decide +kernel

/-- If acting raises, for instance the preprocessing layer `Deltafier` for two states, the noise stays. -/
theorem exception_violation : ∃ (q : NoiseParam ℚ) (draws vars : List ℚ) (body : List ℚ → Option (List ℚ)),
    draws.length = vars.length ∧ (noisyAct id q false false draws body vars).1 = none ∧
      (noisyAct id q false false draws body vars).2 ≠ vars :=
  ⟨⟨false, 1, 1⟩, [1], [0], fun _ => none, rfl, by decide +kernel, by decide +kernel⟩

/-- Rounding with relative error at most `u` moves a variable `v` with noise `n` by at most `u |v| + u (1 + u) |v + n|`. -/
theorem noise_drift_partial (rnd : K → K) (u : K) (hu : 0 ≤ u) (hr : ∀ x, |rnd x - x| ≤ u * |x|)
    (q : NoiseParam K) (z v : K) (body : List K → Option β) {b : β}
    (hb : (noisyAct rnd q false false [z] body [v]).1 = some b) :
    ∃ v', (noisyAct rnd q false false [z] body [v]).2 = [v'] ∧
      |v' - v| ≤ u * |v| + u * (1 + u) * |v + rnd (q.value * z)| := by
  have hv : 0 ≤ u * |v| := mul_nonneg hu (abs_nonneg _)
  have hb0 : 0 ≤ u * (1 + u) * |v + rnd (q.value * z)| := mul_nonneg (mul_nonneg hu (by linarith)) (abs_nonneg _)
  unfold noisyAct at hb ⊢
  by_cases ha : noiseActive q false [v] = true
  · simp only [ha, if_true] at hb ⊢
    cases hbody : body (noisyVars rnd (noiseAmount q false) false [v] [z]) with
    | none => rw [hbody] at hb; cases hb
    | some c =>
      dsimp only
      by_cases h0 : q.value = 0
      · refine ⟨v, ?_, ?_⟩
        · simp [reversedVars, noisyVars, noiseAmount, h0]
        · rw [sub_self, abs_zero]; linarith
      · refine ⟨rnd (rnd (v + rnd (q.value * z)) - rnd (q.value * z)), ?_, ?_⟩
        · simp [reversedVars, noisyVars, noiseTensors, noiseAmount, h0]
        · generalize rnd (q.value * z) = n at hb0 ⊢
          have h1 := hr (v + n)
          have h2 := hr (rnd (v + n) - n)
          have h3 : |rnd (v + n) - n| ≤ |v| + u * |v + n| := by
            have : rnd (v + n) - n = v + (rnd (v + n) - (v + n)) := by ring
            rw [this]
            exact (abs_add_le _ _).trans (by linarith)
          have h4 := mul_le_mul_of_nonneg_left h3 hu
          have : rnd (rnd (v + n) - n) - v = (rnd (rnd (v + n) - n) - (rnd (v + n) - n)) + (rnd (v + n) - (v + n)) := by ring
          rw [this]
          refine (abs_add_le _ _).trans ?_
          have h5 : u * (|v| + u * |v + n|) = u * |v| + u * u * |v + n| := by ring
          have h6 : u * (1 + u) * |v + n| = u * |v + n| + u * u * |v + n| := by ring
          rw [h6]
          linarith
  · refine ⟨v, by simp [ha], ?_⟩
    rw [sub_self, abs_zero]; linarith

example : (noisyAct id param false false [1] tell [3]).1 = some [7 / 2] := by
  simp [noisyAct, noiseActive, noiseAmount, noiseTensors, noisyVars, param, tell]; norm_num

/-- Unless deterministic, the policy acts with each variable plus standard deviation times normal number: the present value of the
noise, the final value if acting is independent. -/
theorem noise_applied (q : NoiseParam K) (hq : Consistent q) (independent : Bool) (draws vars : List K) (body : List K → Option β)
    (hlen : draws.length = vars.length) :
    (noisyAct id q independent false draws body vars).1 =
      body (List.zipWith (fun v z => v + (if independent then q.final else q.value) * z) vars draws) := by
  have key : ∀ (a : K) (vs zs : List K), List.zipWith (fun v n => v + n) vs (List.zipWith (fun _ z => a * z) vs zs)
      = List.zipWith (fun v z => v + a * z) vs zs := by
    intro a vs
    induction vs with
    | nil => intro zs; rfl
    | cons v vs ih => intro zs; cases zs with
      | nil => rfl
      | cons z zs => simp [ih]
  have zero : ∀ (a : K), a = 0 → ∀ (vs zs : List K), zs.length = vs.length → List.zipWith (fun v z => v + a * z) vs zs = vs := by
    intro a ha vs
    induction vs with
    | nil => intro zs _; simp
    | cons v vs ih => intro zs h; cases zs with
      | nil => simp at h
      | cons z zs =>
        simp only [List.length_cons, Nat.add_right_cancel_iff] at h
        rw [List.zipWith_cons_cons, ih zs h, ha, zero_mul, add_zero]
  unfold noisyAct
  by_cases ha : noiseActive q independent vars = true
  · simp only [ha, if_true]
    have hin : noisyVars id (noiseAmount q independent) false vars draws =
        List.zipWith (fun v z => v + (if independent then q.final else q.value) * z) vars draws := by
      show noisyVars id (if independent = true then q.final else q.value) false vars draws = _
      generalize (if independent = true then q.final else q.value) = a
      unfold noisyVars noiseTensors
      by_cases h0 : a = 0
      · rw [zero a h0 vars draws hlen]
        simp [h0]
      · simpa [h0] using key a vars draws
    rw [hin]
    cases body (List.zipWith (fun v z => v + (if independent then q.final else q.value) * z) vars draws) <;> rfl
  · rw [if_neg ha]
    by_cases hv : vars = []
    · subst hv; simp
    · have h0 : (if independent = true then q.final else q.value) = 0 := by
        unfold noiseActive at ha
        cases independent with
        | true => simpa [hv] using ha
        | false =>
          have : q.constantZero = true := by simpa [hv] using ha
          simpa using (hq this).1
      dsimp only
      rw [zero _ h0 vars draws hlen]

example : Consistent param := by intro h; cases h

/-- Deterministic acts use the variables as they are, with any rounding. -/
theorem noise_deterministic (rnd : K → K) (q : NoiseParam K) (independent : Bool) (draws vars : List K) (body : List K → Option β) :
    (noisyAct rnd q independent true draws body vars).1 = body vars := by
  unfold noisyAct
  split
  · simp only [noisyVars, Bool.true_or, if_true]
    cases body vars <;> rfl
  · rfl

/-- Noise zero: the variables are used as they are, and left as they are, with any rounding, also if acting raises. -/
theorem noise_zero (rnd : K → K) (q : NoiseParam K) (independent deterministic : Bool)
    (h0 : (if independent then q.final else q.value) = 0) (draws vars : List K) (body : List K → Option β) :
    noisyAct rnd q independent deterministic draws body vars = (body vars, vars) := by
  have h0' : noiseAmount q independent = 0 := h0
  unfold noisyAct
  split
  · simp only [noisyVars, h0', decide_true, Bool.or_true, if_true, reversedVars]
    cases body vars <;> rfl
  · rfl

example : (if false then (⟨false, 0, 1⟩ : NoiseParam ℚ).final else (⟨false, 0, 1⟩ : NoiseParam ℚ).value) = 0 := by simp

/-- Deterministic acts leave the variables as they are if these are rounded already, also if acting raises. -/
theorem noise_deterministic_removed (rnd : K → K) (q : NoiseParam K) (independent : Bool) (draws vars : List K)
    (hv : ∀ v ∈ vars, rnd v = v) (body : List K → Option β) :
    (noisyAct rnd q independent true draws body vars).2 = vars := by
  have key : ∀ vs : List K, (∀ v ∈ vs, rnd v = v) →
      List.zipWith (fun v n => rnd (v - n)) vs (vs.map fun _ => 0) = vs := by
    intro vs
    induction vs with
    | nil => intro _; rfl
    | cons v vs ih => intro h; simp [ih fun w hw => h w (List.mem_cons_of_mem _ hw), h v List.mem_cons_self]
  unfold noisyAct
  split
  · simp only [noisyVars, Bool.true_or, if_true, noiseTensors]
    cases body vars
    · rfl
    · dsimp only [reversedVars]
      split
      · rfl
      · exact key vars hv
  · rfl

example : ∀ v ∈ ([1 / 2 ^ 30] : List ℚ), Verif.Optim.Float.round32 v = v := by decide +kernel

end Verif.Props.Noise
