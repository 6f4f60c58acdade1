import Verif.Grad.Spec
import Mathlib.Tactic.Linarith
import Mathlib.Tactic.FieldSimp
import Mathlib.Tactic.Positivity
import Mathlib.Tactic.Ring

/-!
# Lemmas about clipping
-/

namespace Verif.Grad

variable {K : Type} [Field K] [LinearOrder K]

theorem squares_eq (t : List K) : squares t = normSq t := by
  induction t with
  | nil => rfl
  | cons x t ih =>
    unfold squares normSq
    rw [ih, List.map_cons, List.sum_cons, sq]
    rfl

theorem squaresAll_eq (l : List (List K)) : squaresAll l = globalSq l := by
  induction l with
  | nil => rfl
  | cons t l ih =>
    unfold squaresAll globalSq
    rw [ih, squares_eq, List.flatten_cons, List.map_append, List.sum_append]
    rfl

theorem scaled_map (s : K) (t : List K) : Scaled s t (t.map (fun x => x * s)) := by
  induction t with
  | nil => exact .nil
  | cons x t ih =>
    rw [List.map_cons, mul_comm x s]
    exact .cons ih

theorem scaled_one (t : List K) : Scaled 1 t t := by
  have := scaled_map (1 : K) t
  rwa [show (fun x : K => x * 1) = id from funext mul_one, List.map_id] at this

theorem scaled_normSq {s : K} {t u : List K} (h : Scaled s t u) : normSq u = s ^ 2 * normSq t := by
  induction h with
  | nil =>
    show (0 : K) = s ^ 2 * 0
    rw [mul_zero]
  | @cons x t u _ ih =>
    unfold normSq at ih ⊢
    rw [List.map_cons, List.map_cons, List.sum_cons, List.sum_cons, ih]
    ring

theorem scaled_length {s : K} {t u : List K} (h : Scaled s t u) : u.length = t.length := by
  induction h with
  | nil => rfl
  | cons _ ih => rw [List.length_cons, List.length_cons, ih]

theorem each_scaled (s : K) (l : List (List K)) : EachRel (Scaled s) l (scaleAll s l) := by
  induction l with
  | nil => exact .nil
  | cons t l ih => exact .cons (scaled_map s t) ih

theorem each_globalSq {s : K} {l m : List (List K)} (h : EachRel (Scaled s) l m) : globalSq m = s ^ 2 * globalSq l := by
  induction h with
  | nil =>
    show (0 : K) = s ^ 2 * 0
    rw [mul_zero]
  | @cons a b l m hab _ ih =>
    have h1 := scaled_normSq hab
    unfold globalSq at ih ⊢
    unfold normSq at h1
    rw [List.flatten_cons, List.flatten_cons, List.map_append, List.map_append, List.sum_append, List.sum_append, ih, h1]
    ring

variable [IsStrictOrderedRing K]

theorem normSq_nonneg (t : List K) : 0 ≤ normSq t := by
  unfold normSq
  refine List.sum_nonneg fun x hx => ?_
  obtain ⟨y, _, rfl⟩ := List.mem_map.1 hx
  exact sq_nonneg y

theorem factor_of {sq r clip s : K} (hr : IsRoot sq r) (hc : 0 ≤ clip) (h : globalFactor r clip = some s) : Factor sq clip s := by
  obtain ⟨hr0, hrr⟩ := hr
  subst hrr
  unfold globalFactor at h
  by_cases h0 : r = 0
  · rw [if_pos h0] at h
    by_cases hc0 : clip = 0
    · rw [if_pos hc0] at h
      cases h
    · rw [if_neg hc0] at h
      have hs : s = 1 := by
        rw [← Option.some.inj h]
        field_simp
      subst hs
      subst h0
      have hcp : 0 < clip := lt_of_le_of_ne hc (Ne.symm hc0)
      have : 0 < clip ^ 2 := by positivity
      exact ⟨zero_le_one, le_refl _, by linarith, fun _ => rfl, fun hh => by linarith⟩
  · rw [if_neg h0] at h
    have hrp : 0 < r := lt_of_le_of_ne hr0 (Ne.symm h0)
    have hrr : 0 < r * r := mul_pos hrp hrp
    by_cases hc0 : clip = 0
    · rw [if_pos hc0, hc0, zero_mul] at h
      have hs := (Option.some.inj h).symm
      subst hs
      subst hc0
      exact ⟨le_refl _, zero_le_one, by linarith, fun hh => by linarith, fun _ => by ring⟩
    · rw [if_neg hc0] at h
      have hcp : 0 < clip := lt_of_le_of_ne hc (Ne.symm hc0)
      rcases le_total r clip with hle | hle
      · have hs : s = 1 := by
          rw [← Option.some.inj h, min_eq_right (one_div_le_one_div_of_le hrp hle)]
          field_simp
        subst hs
        have hsq : r * r ≤ clip ^ 2 := by
          rw [sq]
          exact mul_le_mul hle hle hr0 hc
        exact ⟨zero_le_one, le_refl _, by linarith, fun _ => rfl, fun hh => by linarith⟩
      · have hs : s = clip / r := by
          rw [← Option.some.inj h, min_eq_left (one_div_le_one_div_of_le hcp hle)]
          ring
        subst hs
        have heq : (clip / r) ^ 2 * (r * r) = clip ^ 2 := by field_simp
        refine ⟨by positivity, (div_le_one hrp).2 hle, le_of_eq heq, fun hh => ?_, fun _ => heq⟩
        have : r = clip := by
          refine le_antisymm ?_ hle
          by_contra hn
          have hlt : clip < r := lt_of_not_ge hn
          have := mul_lt_mul hlt hle hcp hr0
          rw [sq] at hh
          linarith
        rw [this]
        exact div_self hc0

theorem globalFactor_some (r : K) {clip : K} (hc : 0 < clip) : ∃ s, globalFactor r clip = some s := by
  unfold globalFactor
  by_cases h0 : r = 0
  · rw [if_pos h0, if_neg (ne_of_gt hc)]
    exact ⟨_, rfl⟩
  · rw [if_neg h0, if_neg (ne_of_gt hc)]
    exact ⟨_, rfl⟩

omit [IsStrictOrderedRing K] in
theorem clipGlobal_inv {root : K → K} {clip : K} {l m : List (List K)} (h : clipGlobal root clip l = some m) :
    ∃ s, globalFactor (root (globalSq l)) clip = some s ∧ m = scaleAll s l := by
  unfold clipGlobal at h
  rw [squaresAll_eq] at h
  cases hf : globalFactor (root (globalSq l)) clip with
  | none =>
    rw [hf] at h
    cases h
  | some s =>
    rw [hf] at h
    exact ⟨s, rfl, (Option.some.inj h).symm⟩

theorem clipGlobal_some (root : K → K) {clip : K} (hc : 0 < clip) (l : List (List K)) : ∃ m, clipGlobal root clip l = some m := by
  obtain ⟨s, hs⟩ := globalFactor_some (root (squaresAll l)) hc
  unfold clipGlobal
  rw [hs]
  exact ⟨_, rfl⟩

/-! ## Gradients and their variables -/

omit [LinearOrder K] [IsStrictOrderedRing K] in
theorem gradSq_eq {ι : Type} {gs : List (Option (List K))} {vs : List ι} (h : gs.length = vs.length) :
    gradSq gs = globalSq ((paired gs vs).map (·.1)) := by
  induction gs generalizing vs with
  | nil => rfl
  | cons g gs ih =>
    cases vs with
    | nil => cases h
    | cons v vs =>
      have h' := ih (vs := vs) (Nat.succ.inj h)
      cases g with
      | none => exact h'
      | some g =>
        show normSq g + gradSq gs = globalSq (g :: (paired gs vs).map (·.1))
        rw [h']
        unfold globalSq normSq
        rw [List.flatten_cons, List.map_append, List.sum_append]

omit [IsStrictOrderedRing K] in
theorem applied_zip {ι : Type} (s : K) {gs : List (Option (List K))} {vs : List ι} (h : gs.length = vs.length) :
    Applied s gs vs ((scaleAll s ((paired gs vs).map (·.1))).zip ((paired gs vs).map (·.2))) := by
  induction gs generalizing vs with
  | nil =>
    cases vs with
    | nil => exact .nil
    | cons v vs => cases h
  | cons g gs ih =>
    cases vs with
    | nil => cases h
    | cons v vs =>
      have h' := ih (vs := vs) (Nat.succ.inj h)
      cases g with
      | none => exact .missing h'
      | some g => exact .given (scaled_map s g) h'

omit [IsStrictOrderedRing K] in
theorem applied_paired {ι : Type} {gs : List (Option (List K))} {vs : List ι} (h : gs.length = vs.length) :
    Applied 1 gs vs (paired gs vs) := by
  induction gs generalizing vs with
  | nil =>
    cases vs with
    | nil => exact .nil
    | cons v vs => cases h
  | cons g gs ih =>
    cases vs with
    | nil => cases h
    | cons v vs =>
      have h' := ih (vs := vs) (Nat.succ.inj h)
      cases g with
      | none => exact .missing h'
      | some g => exact .given (scaled_one g) h'

omit [LinearOrder K] [IsStrictOrderedRing K] in
theorem paired_nil_iff {ι : Type} {gs : List (Option (List K))} {vs : List ι} (h : gs.length = vs.length) :
    paired gs vs = [] ↔ ∀ g ∈ gs, g = none := by
  induction gs generalizing vs with
  | nil => exact ⟨fun _ g hg => absurd hg List.not_mem_nil, fun _ => rfl⟩
  | cons g gs ih =>
    cases vs with
    | nil => cases h
    | cons v vs =>
      have h' := ih (vs := vs) (Nat.succ.inj h)
      cases g with
      | none =>
        refine Iff.trans h' ⟨fun hh g hg => ?_, fun hh g hg => hh g (List.mem_cons_of_mem _ hg)⟩
        rcases List.mem_cons.1 hg with hg | hg
        · exact hg
        · exact hh g hg
      | some g => exact ⟨nofun, fun hh => nomatch hh _ List.mem_cons_self⟩

/-! ## Deltas -/

omit [Field K] [LinearOrder K] [IsStrictOrderedRing K] in
theorem collect_each {α : Type} {f : α → Option (List K)} {l : List α} {m : List (List K)} (h : collect (l.map f) = some m) :
    EachRel (fun a b => f a = some b) l m := by
  induction l generalizing m with
  | nil =>
    rw [← Option.some.inj h]
    exact .nil
  | cons a l ih =>
    rw [List.map_cons] at h
    cases hf : f a with
    | none =>
      rw [hf] at h
      cases h
    | some b =>
      rw [hf] at h
      simp only [collect] at h
      cases hl : collect (l.map f) with
      | none =>
        rw [hl] at h
        cases h
      | some r =>
        rw [hl] at h
        rw [← Option.some.inj h]
        exact .cons hf (ih hl)

omit [Field K] [LinearOrder K] [IsStrictOrderedRing K] in
theorem collect_some {α : Type} {f : α → Option (List K)} {l : List α} (h : ∀ a ∈ l, ∃ b, f a = some b) : ∃ m, collect (l.map f) = some m := by
  induction l with
  | nil => exact ⟨[], rfl⟩
  | cons a l ih =>
    obtain ⟨b, hb⟩ := h a List.mem_cons_self
    obtain ⟨m, hm⟩ := ih fun x hx => h x (List.mem_cons_of_mem _ hx)
    refine ⟨b :: m, ?_⟩
    rw [List.map_cons, hb]
    simp only [collect, hm]

theorem each_mono {α β : Type} {R S : α → β → Prop} {l : List α} {m : List β} (h : EachRel R l m) (hRS : ∀ a b, a ∈ l → R a b → S a b) :
    EachRel S l m := by
  induction h with
  | nil => exact .nil
  | cons hab _ ih => exact .cons (hRS _ _ List.mem_cons_self hab) (ih fun a b ha => hRS a b (List.mem_cons_of_mem _ ha))

theorem clipNorm_factor {root : K → K} {clip : K} {t u : List K} (hr : IsRoot (normSq t) (root (normSq t))) (hc : 0 ≤ clip)
    (h : clipNorm root clip t = some u) : ∃ s, Factor (normSq t) clip s ∧ Scaled s t u := by
  unfold clipNorm at h
  rw [squares_eq] at h
  dsimp only at h
  have hn : (if 0 < normSq t then root (normSq t) else normSq t) = root (normSq t) := by
    by_cases hp : 0 < normSq t
    · rw [if_pos hp]
    · rw [if_neg hp]
      have h0 : normSq t = 0 := le_antisymm (not_lt.1 hp) (normSq_nonneg t)
      rw [h0] at hr ⊢
      exact (mul_self_eq_zero.1 hr.2).symm
  rw [hn] at h
  by_cases hm : max (root (normSq t)) clip = 0
  · rw [if_pos hm] at h
    cases h
  · rw [if_neg hm] at h
    have hs : Scaled (clip / max (root (normSq t)) clip) t u := by
      rw [← Option.some.inj h]
      have := scaled_map (clip / max (root (normSq t)) clip) t
      rwa [show (fun x : K => x * (clip / max (root (normSq t)) clip)) = fun x => x * clip / max (root (normSq t)) clip from
        funext fun x => by ring] at this
    refine ⟨_, ?_, hs⟩
    refine factor_of hr hc ?_
    generalize root (normSq t) = r at hm hr
    have hr0 := hr.1
    unfold globalFactor
    by_cases h0 : r = 0
    · rw [if_pos h0]
      rw [h0, max_eq_right hc] at hm ⊢
      rw [if_neg hm, ← div_eq_mul_one_div]
    · rw [if_neg h0]
      have hrp : 0 < r := lt_of_le_of_ne hr0 (Ne.symm h0)
      by_cases hc0 : clip = 0
      · rw [if_pos hc0, hc0]
        simp
      · have hcp : 0 < clip := lt_of_le_of_ne hc (Ne.symm hc0)
        rw [if_neg hc0]
        rcases le_total r clip with hle | hle
        · rw [min_eq_right (one_div_le_one_div_of_le hrp hle), max_eq_right hle, ← div_eq_mul_one_div]
        · rw [min_eq_left (one_div_le_one_div_of_le hcp hle), max_eq_left hle, ← div_eq_mul_one_div]

theorem clipNorm_some {root : K → K} {clip : K} (t : List K) (hc : 0 < clip) : ∃ u, clipNorm root clip t = some u := by
  unfold clipNorm
  dsimp only
  have : 0 < max (if 0 < squares t then root (squares t) else squares t) clip := lt_of_lt_of_le hc (le_max_right _ _)
  rw [if_neg (ne_of_gt this)]
  exact ⟨_, rfl⟩

theorem nearest_of {c : K} (hc : 0 ≤ c) (x : K) : Nearest c x (max (min x c) (-c)) := by
  have hcc : -c ≤ c := by linarith
  refine ⟨le_max_right _ _, max_le (min_le_right _ _) hcc, fun h1 h2 => ?_, fun h => ?_, fun h => ?_⟩
  · rw [min_eq_left h2, max_eq_left h1]
  · rw [min_eq_right h, max_eq_left hcc]
  · rw [min_eq_left (h.trans hcc), max_eq_right h]

theorem clipValue_nearest {c : K} (hc : 0 ≤ c) (t : List K) : EachRel (Nearest c) t (clipValue c t) := by
  induction t with
  | nil => exact .nil
  | cons x t ih => exact .cons (nearest_of hc x) ih

omit [LinearOrder K] [IsStrictOrderedRing K] in
theorem correct_one {a d v c : List K} (h : Sum a d v) (hc : c.length = d.length) :
    Sum a c (List.zipWith (fun x y => x + y) v (List.zipWith (fun x y => x - y) c d)) := by
  induction h generalizing c with
  | nil =>
    cases c with
    | nil => exact .nil
    | cons x c => cases hc
  | @cons x y a b v _ ih =>
    cases c with
    | nil => cases hc
    | cons z c =>
      have := ih (c := c) (Nat.succ.inj hc)
      rw [List.zipWith_cons_cons, List.zipWith_cons_cons, show x + y + (z - y) = x + z by ring]
      exact .cons this

omit [LinearOrder K] [IsStrictOrderedRing K] in
theorem correct_all {a d v c : List (List K)} (h : SumAll a d v) (hc : EachRel (fun x y => y.length = x.length) d c) :
    SumAll a c (correct v d c) := by
  induction h generalizing c with
  | nil =>
    cases hc
    exact .nil
  | cons hs _ ih =>
    cases hc with
    | cons hl hc => exact .cons (correct_one hs hl) (ih hc)

theorem each_length {α β : Type} {R : α → β → Prop} {l : List α} {m : List β} (h : EachRel R l m) : m.length = l.length := by
  induction h with
  | nil => rfl
  | cons _ _ ih => rw [List.length_cons, List.length_cons, ih]

theorem each_map {α β : Type} {R : α → β → Prop} (f : α → β) (l : List α) (h : ∀ a, R a (f a)) : EachRel R l (l.map f) := by
  induction l with
  | nil => exact .nil
  | cons a l ih => exact .cons (h a) ih

omit [IsStrictOrderedRing K] in
theorem clippingStep_inv {root : K → K} {mode : Mode} {t : K} {vars deltas after out : List (List K)}
    (h : clippingStep root mode t vars deltas = some (after, out)) :
    clipDeltas root mode t deltas = some out ∧ after = correct vars deltas out := by
  unfold clippingStep at h
  cases hc : clipDeltas root mode t deltas with
  | none =>
    rw [hc] at h
    cases h
  | some c =>
    rw [hc] at h
    obtain ⟨h1, h2⟩ := Prod.mk.inj (Option.some.inj h)
    subst h2
    exact ⟨rfl, h1.symm⟩

end Verif.Grad
