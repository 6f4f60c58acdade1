import Verif.Layer.TemporalLemmas

/-!
# C42: temporal layers fold their cell over the last inputs of each window

The internals are right, but the output of a window shorter than the longest one repeats its last input (`shorter_violation`), windows
longer than needed fail the internal check (`trimmed_violation`), and with constant horizon zero a layer never works with assertions and
never updates its internals without (`zero_violation`).
-/

namespace Verif.Props.Temporal
open Verif.Layer

section
variable {X S O : Type}

theorem apply_eq {c : TConfig} (hz : c.constZero = false) (cell : Cell X S O) (zero : O) {xs : List X} {ws : List Window}
    (hc : Contiguous xs.length 0 ws) {ss : List S} (hs : ss.length = ws.length) :
    applyIterative c cell zero xs ws ss = if c.assertions = true ∧ ∃ w ∈ ws, c.h + 1 < w.len then .error .assertion
      else .ok (((ws.zip ss).map (final cell zero c.h xs ws)).map Row.out, ((ws.zip ss).map (final cell zero c.h xs ws)).map Row.state) := by
  rw [applyIterative, hz, if_neg (by simp)]
  dsimp only
  rw [loop_final cell zero hc.inside.2 ss]
  dsimp only
  simp only [check_iff cell zero hc hs]
  congr 1
  simp

/-- Every internal state is that of folding the cell over the last `min (h + 1) length` inputs of its window. Missing: windows longer than
needed if assertions are created, see `trimmed_violation`, and constant horizon zero, see `zero_violation`. -/
theorem internals_partial {c : TConfig} (hz : c.constZero = false) (cell : Cell X S O) (zero : O) {xs : List X} {ws : List Window}
    (hc : Contiguous xs.length 0 ws) {ss : List S} (hs : ss.length = ws.length) (ha : c.assertions = true → ∀ w ∈ ws, w.len ≤ c.h + 1) :
    ∃ outs, applyIterative c cell zero xs ws ss = .ok (outs, List.zipWith (fun w s => finalState cell s (needed c.h xs w)) ws ss) ∧
      outs.length = ws.length := by
  refine ⟨((ws.zip ss).map (final cell zero c.h xs ws)).map Row.out, ?_, by simp [hs]⟩
  rw [apply_eq hz cell zero hc hs, if_neg (fun ⟨h1, w, h2, h3⟩ => absurd (ha h1 w h2) (by omega))]
  rw [List.map_map (f := final cell zero c.h xs ws) (g := Row.state), ← List.map_uncurry_zip_eq_zipWith]
  rw [show (ws.zip ss).map (Row.state ∘ final cell zero c.h xs ws) = _ from List.map_congr_left fun p hp => final_state (List.of_mem_zip hp).1]
  rfl

/-- Every output is that of folding the cell over the last `min (h + 1) length` inputs of its window, followed by its last input once more
if the window is shorter than the longest. -/
theorem outputs_eq {c : TConfig} (hz : c.constZero = false) (cell : Cell X S O) (zero : O) {xs : List X} {ws : List Window}
    (hc : Contiguous xs.length 0 ws) {ss : List S} (hs : ss.length = ws.length) (ha : c.assertions = true → ∀ w ∈ ws, w.len ≤ c.h + 1) :
    ∃ outs ints, applyIterative c cell zero xs ws ss = .ok (outs, ints) ∧ outs.map some = List.zipWith (fun w s => finalOutput cell s
      (needed c.h xs w ++ if ∃ v ∈ ws, min (c.h + 1) w.len < min (c.h + 1) v.len then ((needed c.h xs w).getLast?).toList else [])) ws ss := by
  refine ⟨_, _, by rw [apply_eq hz cell zero hc hs, if_neg (fun ⟨h1, w, h2, h3⟩ => absurd (ha h1 w h2) (by omega))], ?_⟩
  rw [← List.map_uncurry_zip_eq_zipWith, List.map_map, List.map_map]
  refine List.map_congr_left fun p hp => ?_
  have hp := (List.of_mem_zip hp).1
  refine (final_out hc.inside.2 hp).trans ?_
  simp only [Function.uncurry, lt_iterations]

/-- The output is right if all windows are as long as the longest, or at least as long as needed. Missing: batches with windows of different
length, see `shorter_violation`, and the cases missing in `internals_partial`. -/
theorem outputs_partial {c : TConfig} (hz : c.constZero = false) (cell : Cell X S O) (zero : O) {xs : List X} {ws : List Window}
    (hc : Contiguous xs.length 0 ws) {ss : List S} (hs : ss.length = ws.length) (ha : c.assertions = true → ∀ w ∈ ws, w.len ≤ c.h + 1)
    {n : Nat} (hn : ∀ w ∈ ws, min (c.h + 1) w.len = n) :
    ∃ outs ints, applyIterative c cell zero xs ws ss = .ok (outs, ints) ∧
      outs.map some = List.zipWith (fun w s => finalOutput cell s (needed c.h xs w)) ws ss := by
  obtain ⟨outs, ints, h1, h2⟩ := outputs_eq hz cell zero hc hs ha
  refine ⟨outs, ints, h1, h2.trans ?_⟩
  rw [← List.map_uncurry_zip_eq_zipWith, ← List.map_uncurry_zip_eq_zipWith]
  refine List.map_congr_left fun p hp => ?_
  have hp := (List.of_mem_zip hp).1
  simp only [Function.uncurry]
  rw [if_neg, List.append_nil]
  rintro ⟨v, hv, h⟩
  rw [hn _ hp, hn v hv] at h
  omega

/-- Cumulative processing: if `cumulative_apply` only uses the valid inputs, it is given the last `min (h + 1) length` inputs of each window.
Missing as in `internals_partial`. -/
theorem cumulative_partial {c : TConfig} (hz : c.constZero = false) {cumulative : List X → Nat → O} {g : List X → O}
    (hg : ∀ l n, cumulative l n = g (l.take n)) {xs : List X} {ws : List Window} (hc : Contiguous xs.length 0 ws)
    (ha : c.assertions = true → ∀ w ∈ ws, w.len ≤ c.h + 1) : applyCumulative c cumulative xs ws = .ok (ws.map fun w => g (needed c.h xs w)) := by
  rw [applyCumulative, hz, if_neg (by simp)]
  dsimp only
  rw [gather_final hc.inside.2]
  dsimp only
  rw [if_neg (fun ⟨h1, h2⟩ => h2 ((gather_check hc).mpr (ha h1)))]
  rw [List.zipWith_map, List.zipWith_self]
  refine congrArg Except.ok (List.map_congr_left fun w hw => ?_)
  rw [hg, gather_take hw (hc.inside.2 w hw).2]

/-! ### Violations -/

/-- With assertions, as by default, windows longer than needed always fail. -/
theorem trimmed_violation {c : TConfig} (hz : c.constZero = false) (ha : c.assertions = true) {xs : List X} {ws : List Window}
    (hc : Contiguous xs.length 0 ws) {w : Window} (hw : w ∈ ws) (hl : c.h + 1 < w.len) :
    (∀ (cell : Cell X S O) (zero : O) (ss : List S), ss.length = ws.length → applyIterative c cell zero xs ws ss = .error .assertion) ∧
    ∀ cumulative : List X → Nat → O, applyCumulative c cumulative xs ws = .error .assertion := by
  refine ⟨fun cell zero ss hs => ?_, fun cumulative => ?_⟩
  · rw [apply_eq hz cell zero hc hs, if_pos ⟨ha, w, hw, hl⟩]
  · rw [applyCumulative, hz, if_neg (by simp)]
    dsimp only
    rw [gather_final hc.inside.2]
    dsimp only
    rw [if_pos ⟨ha, fun h => absurd ((gather_check hc).mp h w hw) (by omega)⟩]

/-- Constant horizon zero: with assertions a recurrent layer always fails, otherwise it does not update its internals; a cumulative layer
always fails. -/
theorem zero_violation {c : TConfig} (hz : c.constZero = true) (xs : List X) (ws : List Window) :
    (c.assertions = true → ∀ (cell : Cell X S O) (zero : O) (ss : List S), applyIterative c cell zero xs ws ss = .error .unbound) ∧
    (∀ (cell : Cell X S O) (zero : O) (ss ints : List S) (outs : List O), applyIterative c cell zero xs ws ss = .ok (outs, ints) → ints = ss) ∧
    ∀ cumulative : List X → Nat → O, applyCumulative c cumulative xs ws = .error .signature := by
  refine ⟨fun ha cell zero ss => ?_, fun cell zero ss ints outs h => ?_, fun cumulative => ?_⟩
  · rw [applyIterative, if_pos hz, if_pos ha, if_pos ha]
    exact ite_self _
  · rw [applyIterative, if_pos hz] at h
    split at h
    · split at h
      · cases h
      · cases h; rfl
    · split at h <;> cases h
  · rw [applyCumulative, if_pos hz]

end

/-- A cell adding up its inputs, with the sum as output. -/
def adder : Cell Nat Nat Nat := fun x s => (s + x, s + x)

/-- Two windows with inputs 1, 2 and 5: the internals are 3 and 5, but the output for the second window is 10. -/
theorem shorter_violation : applyIterative ⟨3, false, true⟩ adder 0 [1, 2, 5] [⟨0, 2⟩, ⟨2, 1⟩] [0, 0] = .ok ([3, 10], [3, 5]) ∧
    finalOutput adder 0 (needed 3 [1, 2, 5] ⟨2, 1⟩) = some 5 := ⟨rfl, rfl⟩

example : applyIterative ⟨1, false, true⟩ adder 0 [1, 2, 5, 7] [⟨0, 2⟩, ⟨2, 2⟩] [0, 100] = .ok ([3, 112], [3, 112]) := rfl
example : applyIterative ⟨1, false, false⟩ adder 0 [1, 2, 5, 7, 9] [⟨0, 3⟩, ⟨3, 2⟩] [0, 100] = .ok ([7, 116], [7, 116]) := rfl
example : Contiguous 5 0 [⟨0, 3⟩, ⟨3, 2⟩] := ⟨rfl, by decide, rfl, by decide, rfl⟩
example : applyCumulative ⟨1, false, false⟩ (fun l n => (l.take n).sum) [1, 2, 5, 7, 9] [⟨0, 3⟩, ⟨3, 1⟩, ⟨4, 1⟩] = .ok [7, 7, 9] := rfl
example : applyIterative ⟨1, false, true⟩ adder 0 [1, 2, 5, 7, 9] [⟨0, 3⟩, ⟨3, 2⟩] [0, 100] = .error .assertion := rfl
example : applyIterative ⟨0, true, false⟩ adder 0 [1, 2] [⟨0, 1⟩, ⟨1, 1⟩] [0, 100] = .ok ([1, 102], [0, 100]) := rfl
example : applyIterative ⟨0, true, true⟩ adder 0 [1, 2] [⟨0, 1⟩, ⟨1, 1⟩] [0, 100] = .error .unbound := rfl

end Verif.Props.Temporal
