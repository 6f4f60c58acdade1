import Verif.Rand.Spec
import Mathlib.Tactic.Ring
import Mathlib.Tactic.Linarith

/-!
# Random hyperparameters: lemmas
-/

namespace Verif.Rand

theorem kwarg_given {r : Random} {name : String} {x : Num} (h : Given r.kwargs name x) : kwarg r name = some x := by
  obtain ⟨l, t, e, hl⟩ := h
  unfold kwarg
  rw [e]
  have : (l ++ (name, x) :: t).find? (fun e => decide (e.1 = name)) = some (name, x) := by
    rw [List.find?_append]
    have hn : l.find? (fun e => decide (e.1 = name)) = none := List.find?_eq_none.2 (fun e he => by simpa using hl e he)
    rw [hn]
    simp
  rw [this]
  rfl

theorem kwarg_missing {r : Random} {name : String} (h : Missing r.kwargs name) : kwarg r name = none := by
  unfold kwarg
  rw [List.find?_eq_none.2 (fun e he => by simpa using h e he)]
  rfl

theorem argument_eq {r : Random} {name : String} {d v : ℚ} (h : Argument r.kwargs name d v) : kwargOr r name d = v := by
  unfold kwargOr
  cases h with
  | int h => rw [kwarg_given h]; rfl
  | float h => rw [kwarg_given h]; rfl
  | missing h => rw [kwarg_missing h]

theorem trunc_eq {x : ℚ} {z : Int} (h : Truncated x z) : trunc x = z := by
  unfold trunc
  split
  · rename_i hx
    obtain ⟨h1, h2⟩ := h.1 hx
    rw [Int.floor_eq_iff.2 ⟨h1, h2⟩]
  · rename_i hx
    obtain ⟨h1, h2⟩ := h.2 (not_le.1 hx)
    rw [Int.ceil_eq_iff.2 ⟨h2, h1⟩]

theorem truncated (x : ℚ) : ∃ z, Truncated x z := by
  by_cases hx : 0 ≤ x
  · exact ⟨⌊x⌋, fun _ => ⟨Int.floor_le x, Int.lt_floor_add_one x⟩, fun h => absurd hx (not_le.2 h)⟩
  · exact ⟨⌈x⌉, fun h => absurd h hx, fun _ => ⟨Int.le_ceil x, by have := Int.ceil_lt_add_one x; linarith⟩⟩

theorem converted_eq {b : Bool} {x v : ℚ} (h : Converted b x v) : toDtype b x = v := by
  unfold Converted at h
  unfold toDtype
  cases b with
  | false => rw [if_neg Bool.false_ne_true] at h ⊢; exact h.symm
  | true =>
    rw [if_pos rfl] at h ⊢
    obtain ⟨z, hz, e⟩ := h
    rw [trunc_eq hz, e]

theorem converted (b : Bool) (x : ℚ) : Converted b x (toDtype b x) := by
  unfold Converted toDtype
  cases b with
  | false => rw [if_neg Bool.false_ne_true, if_neg Bool.false_ne_true]
  | true =>
    rw [if_pos rfl, if_pos rfl]
    obtain ⟨z, hz⟩ := truncated x
    exact ⟨z, hz, trunc_eq hz⟩

theorem converted_type {b : Bool} {x v : ℚ} (h : Converted b x v) : OfType b v := by
  intro hb
  unfold Converted at h
  rw [if_pos hb] at h
  obtain ⟨z, _, e⟩ := h
  exact ⟨z, e⟩

theorem trunc_int (z : Int) : trunc (z : ℚ) = z := trunc_eq ⟨fun _ => ⟨le_refl _, by linarith⟩, fun _ => ⟨le_refl _, by linarith⟩⟩

theorem trunc_mono {x y : ℚ} (h : x ≤ y) : trunc x ≤ trunc y := by
  unfold trunc
  split
  · rename_i hx
    rw [if_pos (le_trans hx h)]
    exact_mod_cast Int.floor_mono h
  · rename_i hx
    split
    · rename_i hy
      have h1 : (⌈x⌉ : Int) ≤ 0 := Int.ceil_le.2 (by push_cast; exact le_of_lt (not_le.1 hx))
      have h2 : (0 : Int) ≤ ⌊y⌋ := Int.le_floor.2 (by push_cast; exact hy)
      exact_mod_cast le_trans h1 h2
    · exact_mod_cast Int.ceil_mono h

theorem toDtype_mono {b : Bool} {x y : ℚ} (h : x ≤ y) : toDtype b x ≤ toDtype b y := by
  unfold toDtype
  split
  · exact trunc_mono h
  · exact h

/-- The middle of two numbers is converted to a number between those converted. -/
theorem middle {b : Bool} {x y : ℚ} (h : toDtype b x ≤ toDtype b y) :
    toDtype b x ≤ toDtype b ((y + x) / 2) ∧ toDtype b ((y + x) / 2) ≤ toDtype b y := by
  rcases le_total x y with hxy | hxy
  · exact ⟨toDtype_mono (by linarith), toDtype_mono (by linarith)⟩
  · have h1 : toDtype b y ≤ toDtype b ((y + x) / 2) := toDtype_mono (by linarith)
    have h2 : toDtype b ((y + x) / 2) ≤ toDtype b x := toDtype_mono (by linarith)
    exact ⟨le_trans h h1, le_trans h2 h⟩

theorem lowerOk_iff {a : ℚ} {c : Option ℚ} : lowerOk (some a) c = true ↔ ∀ x, c = some x → x ≤ a := by
  unfold lowerOk
  cases c with
  | none => exact ⟨fun _ => nofun, fun _ => rfl⟩
  | some c =>
    dsimp only
    rw [Bool.not_eq_true', decide_eq_false_iff_not, not_lt]
    exact ⟨fun h x e => by cases e; exact h, fun h => h c rfl⟩

theorem upperOk_iff {a : ℚ} {c : Option ℚ} : upperOk (some a) c = true ↔ ∀ x, c = some x → a ≤ x := by
  unfold upperOk
  cases c with
  | none => exact ⟨fun _ => nofun, fun _ => rfl⟩
  | some c =>
    dsimp only
    rw [Bool.not_eq_true', decide_eq_false_iff_not, not_lt]
    exact ⟨fun h x e => by cases e; exact h, fun h => h c rfl⟩

theorem checked_ok {r : Required} {v : ℚ} (h : Satisfies r v) : checked r v = .ok v := by
  unfold checked
  rw [lowerOk_iff.2 h.1, upperOk_iff.2 h.2]
  rfl

theorem checked_inv {r : Required} {v w : ℚ} (h : checked r v = .ok w) : w = v ∧ Satisfies r v := by
  unfold checked at h
  split at h
  · rename_i hc
    rw [Bool.and_eq_true] at hc
    exact ⟨(Except.ok.inj h).symm, lowerOk_iff.1 hc.1, upperOk_iff.1 hc.2⟩
  · cases h

theorem checkBounds_ok {min max : Option ℚ} {r : Required} :
    checkBounds min max r = .ok () ↔ crossed min max = false ∧ lowerOk min r.min = true ∧ upperOk max r.max = true := by
  unfold checkBounds
  cases h1 : crossed min max <;> cases h2 : lowerOk min r.min <;> cases h3 : upperOk max r.max <;> simp

theorem sum_scale (d : ℚ) (l : List ℚ) : (l.map (fun x => d * x)).sum = d * l.sum := by
  induction l with
  | nil => rw [List.map_nil, List.sum_nil, mul_zero]
  | cons a l ih => rw [List.map_cons, List.sum_cons, List.sum_cons, ih, mul_add]

theorem weighted_append (d : ℚ) (zs : List ℚ) (z : ℚ) : weighted d (zs ++ [z]) = d * weighted d zs + z := by
  unfold weighted
  rw [List.reverse_append]
  show ((z :: zs.reverse).mapIdx (fun i x => d ^ i * x)).sum = _
  rw [List.mapIdx_cons, List.sum_cons, pow_zero, one_mul, add_comm]
  congr 1
  rw [← sum_scale]
  congr 1
  apply List.ext_getElem
  · rw [List.length_mapIdx, List.length_map, List.length_mapIdx]
  · intro i h1 h2
    rw [List.getElem_mapIdx, List.getElem_map, List.getElem_mapIdx]
    ring

theorem run_append (p : Process) (x : ℚ) (zs : List ℚ) (z : ℚ) :
    (run p x (zs ++ [z])).1 = next p (run p x zs).1 z ∧
      (run p x (zs ++ [z])).2 = (run p x zs).2 ++ [checked p.required (toDtype p.isInt (next p (run p x zs).1 z))] := by
  induction zs generalizing x with
  | nil => exact ⟨rfl, rfl⟩
  | cons a zs ih =>
    obtain ⟨h1, h2⟩ := ih (next p x a)
    refine ⟨h1, ?_⟩
    show _ :: (run p (next p x a) (zs ++ [z])).2 = _ :: _
    rw [h2]
    rfl

end Verif.Rand
