import Verif.Mix.Spec
import Mathlib.Algebra.Order.Field.Basic
import Mathlib.Algebra.BigOperators.Group.List.Basic
import Mathlib.Algebra.Order.Ring.Cast
import Mathlib.Data.Nat.Cast.Order.Field
import Mathlib.Tactic.Linarith
import Mathlib.Tactic.Ring
import Mathlib.Tactic.FieldSimp
import Mathlib.Tactic.Positivity

/-!
# Lemmas on self-attention and activation functions
-/

namespace Verif.Mix

variable {K : Type} [Field K] [LinearOrder K]

theorem dot_eq (u v : List K) : dot u v = inner u v := by
  induction u generalizing v with
  | nil => rfl
  | cons x u ih =>
    cases v with
    | nil => rfl
    | cons y v =>
      unfold dot inner
      rw [ih, List.zipWith_cons_cons, List.sum_cons]
      rfl

theorem total_eq (l : List K) : total l = l.sum := by
  induction l with
  | nil => rfl
  | cons x l ih => rw [total, ih, List.sum_cons]

theorem inner_map {α : Type} (f g : α → K) (l : List α) : inner (l.map f) (l.map g) = (l.map (fun y => f y * g y)).sum := by
  unfold inner
  rw [List.zipWith_map, List.zipWith_self]

theorem sum_pos [IsStrictOrderedRing K] (l : List K) (hl : l ≠ []) (h : ∀ v ∈ l, 0 < v) : 0 < l.sum := by
  cases l with
  | nil => exact absurd rfl hl
  | cons x l =>
    rw [List.sum_cons]
    have hx := h x List.mem_cons_self
    have : 0 ≤ l.sum := by
      clear hl
      have h' : ∀ v ∈ l, 0 < v := fun v hv => h v (List.mem_cons_of_mem _ hv)
      clear h
      induction l with
      | nil => exact le_refl _
      | cons y l ih =>
        rw [List.sum_cons]
        have := h' y List.mem_cons_self
        have := ih (fun v hv => h' v (List.mem_cons_of_mem _ hv))
        linarith
    linarith

theorem sum_div (l : List K) (t : K) : (l.map (fun s => s / t)).sum = l.sum / t := by
  induction l with
  | nil => simp
  | cons x l ih => rw [List.map_cons, List.sum_cons, List.sum_cons, ih, add_div]

variable {N : Numeric K}

theorem softmax_pos [IsStrictOrderedRing K] (F : Facts N) (l : List K) : ∀ v ∈ softmax N l, 0 < v := by
  intro v hv
  obtain ⟨s, hs, rfl⟩ := List.mem_map.1 hv
  refine div_pos (F.exp_pos s) ?_
  rw [total_eq]
  refine sum_pos _ (fun h => ?_) fun w hw => ?_
  · rw [List.map_eq_nil_iff] at h
    rw [h] at hs
    exact nomatch hs
  · obtain ⟨t, _, rfl⟩ := List.mem_map.1 hw
    exact F.exp_pos t

theorem exp_sum_pos [IsStrictOrderedRing K] (F : Facts N) (l : List K) (hl : l ≠ []) : 0 < (l.map N.exp).sum := by
  refine sum_pos _ (fun h => hl (List.map_eq_nil_iff.1 h)) fun w hw => ?_
  obtain ⟨t, _, rfl⟩ := List.mem_map.1 hw
  exact F.exp_pos t

theorem softmax_sum [IsStrictOrderedRing K] (F : Facts N) (l : List K) (hl : l ≠ []) : (softmax N l).sum = 1 := by
  unfold softmax
  have : (l.map fun s => N.exp s / total (l.map N.exp)) = (l.map N.exp).map (fun s => s / total (l.map N.exp)) := by rw [List.map_map]; rfl
  rw [this, sum_div, total_eq]
  exact div_self (ne_of_gt (exp_sum_pos F l hl))

theorem softmax_ratio (l : List K) (i j : Nat) (u v t t' : K) (hu : (softmax N l)[i]? = some u) (hv : (softmax N l)[j]? = some v)
    (ht : l[i]? = some t) (ht' : l[j]? = some t') : u * N.exp t' = v * N.exp t := by
  unfold softmax at hu hv
  rw [List.getElem?_map, ht] at hu
  rw [List.getElem?_map, ht'] at hv
  have h1 := Option.some.inj hu
  have h2 := Option.some.inj hv
  rw [← h1, ← h2]
  ring

theorem width_is (l : Attention K) : IsWidth l l.width := by
  unfold IsWidth Attention.width
  cases h : l.attentionSize with
  | none => exact .inr ⟨rfl, rfl⟩
  | some a => exact .inl rfl

theorem width_pos {l : Attention K} (h : Positive l) : 0 < l.width := by
  unfold Attention.width
  cases ha : l.attentionSize with
  | none => exact h.1
  | some a => exact h.2 a ha

theorem score_is [IsStrictOrderedRing K] (F : Facts N) {a : Nat} (ha : 0 < a) (q k : List K) : IsScore a q k (dot q k / N.sqrt (a : K)) := by
  have ha' : (0 : K) < (a : K) := Nat.cast_pos.2 ha
  have hm := F.sqrt_mul _ (le_of_lt ha')
  refine ⟨N.sqrt a, F.sqrt_nonneg _ (le_of_lt ha'), hm, ?_⟩
  have hne : N.sqrt (a : K) ≠ 0 := fun h => by rw [h, zero_mul] at hm; exact absurd hm (ne_of_lt ha')
  rw [div_mul_cancel₀ _ hne, dot_eq]

/-- The weights of a position. -/
def weightsOf (N : Numeric K) (l : Attention K) (x : List (List K)) (p : List K) : List K := softmax N (scores N l.width (x.map l.key) (l.query p))

theorem attends [IsStrictOrderedRing K] (F : Facts N) {l : Attention K} (h : Positive l) (x : List (List K)) (hx : x ≠ []) (p : List K) :
    Attends N l x p (weightsOf N l x p) := by
  have hlen : (scores N l.width (x.map l.key) (l.query p)).length = x.length := by
    unfold scores
    rw [List.length_map, List.length_map]
  refine ⟨?_, softmax_pos F _, softmax_sum F _ ?_, l.width, scores N l.width (x.map l.key) (l.query p), width_is l, hlen, ?_, ?_⟩
  · unfold weightsOf softmax
    rw [List.length_map, hlen]
  · intro hn
    rw [hn] at hlen
    exact hx (List.length_eq_zero_iff.1 hlen.symm)
  · intro j y t hy ht
    unfold scores at ht
    rw [List.getElem?_map, List.getElem?_map, hy] at ht
    rw [← Option.some.inj ht]
    exact score_is F (width_pos h) _ _
  · intro i j u v t t' hu hv ht ht'
    exact softmax_ratio _ i j u v t t' hu hv ht ht'

/-- The row of a position. -/
def rowOf (N : Numeric K) (l : Attention K) (x : List (List K)) (p : List K) : List K :=
  addBias l.bias (combine l.size (weightsOf N l x p) (x.map l.value))

theorem apply_eq {l : Attention K} (h : Positive l) (x : List (List K)) : l.apply N x = .ok (x.map (rowOf N l x)) := by
  unfold Attention.apply
  rw [if_neg (by have := width_pos h; omega), if_neg (by have := h.1; omega)]
  rfl

theorem combine_get (size : Nat) (w : List K) (l : Attention K) (x : List (List K)) (c : Nat) (hc : c < size) :
    (combine size w (x.map l.value))[c]? = some (inner w (feature l x c)) := by
  unfold combine feature
  rw [List.getElem?_map, List.getElem?_range hc]
  change some (dot w _) = _
  rw [dot_eq, List.map_map]
  rfl

theorem row_length {l : Attention K} (hf : Fits l) (x : List (List K)) (p : List K) : (rowOf N l x p).length = l.size := by
  unfold rowOf addBias combine
  cases hb : l.bias with
  | none => simp
  | some b =>
    simp only
    rw [List.length_zipWith, List.length_map, List.length_range, hf b hb, min_self]

theorem row_get {l : Attention K} (hf : Fits l) (x : List (List K)) (p : List K) (c : Nat) (hc : c < l.size) :
    (rowOf N l x p)[c]? = some (inner (weightsOf N l x p) (feature l x c) + biasAt l c) := by
  unfold rowOf addBias biasAt
  cases hb : l.bias with
  | none =>
    simp only
    rw [combine_get _ _ _ _ _ hc, add_zero]
  | some b =>
    simp only
    have hlt : c < b.length := by rw [hf b hb]; exact hc
    rw [List.getElem?_zipWith, combine_get _ _ _ _ _ hc, List.getD_eq_getElem?_getD, List.getElem?_eq_getElem hlt]
    rfl

theorem inner_bounds [IsStrictOrderedRing K] (w v : List K) (h : w.length = v.length) (hw : ∀ u ∈ w, 0 < u) (lo hi : K)
    (hv : ∀ u ∈ v, lo ≤ u ∧ u ≤ hi) : lo * w.sum ≤ inner w v ∧ inner w v ≤ hi * w.sum := by
  induction w generalizing v with
  | nil =>
    unfold inner
    simp
  | cons x w ih =>
    cases v with
    | nil => cases h
    | cons y v =>
      have hx := hw x List.mem_cons_self
      obtain ⟨h1, h2⟩ := hv y List.mem_cons_self
      obtain ⟨g1, g2⟩ := ih v (Nat.succ.inj h) (fun u hu => hw u (List.mem_cons_of_mem _ hu)) (fun u hu => hv u (List.mem_cons_of_mem _ hu))
      unfold inner at g1 g2 ⊢
      rw [List.zipWith_cons_cons, List.sum_cons, List.sum_cons]
      constructor
      · have := mul_le_mul_of_nonneg_left h1 (le_of_lt hx)
        linarith
      · have := mul_le_mul_of_nonneg_left h2 (le_of_lt hx)
        linarith

theorem softmax_map {α : Type} (f : α → K) (l : List α) : softmax N (l.map f) = l.map (fun y => N.exp (f y) / (l.map (fun z => N.exp (f z))).sum) := by
  unfold softmax
  rw [List.map_map, total_eq, List.map_map]
  rfl

theorem row_perm (l : Attention K) {x y : List (List K)} (h : x.Perm y) (p : List K) : rowOf N l x p = rowOf N l y p := by
  have key : ∀ c, inner (weightsOf N l x p) (feature l x c) = inner (weightsOf N l y p) (feature l y c) := by
    intro c
    unfold weightsOf scores feature
    rw [List.map_map, List.map_map, softmax_map, softmax_map, inner_map, inner_map]
    have hs : ∀ g : List K → K, (x.map g).sum = (y.map g).sum := fun g => (h.map g).sum_eq
    rw [hs, hs]
  unfold rowOf
  congr 1
  unfold combine
  refine List.map_congr_left fun c _ => ?_
  have h1 := key c
  unfold feature at h1
  rw [dot_eq, dot_eq, List.map_map, List.map_map]
  exact h1

/-! ## Activation functions -/

theorem exp_zero [IsStrictOrderedRing K] (F : Facts N) : N.exp 0 = 1 := by
  have h := F.exp_add 0 0
  rw [add_zero] at h
  have hp := F.exp_pos 0
  have : N.exp 0 * (N.exp 0 - 1) = 0 := by linarith [h]
  rcases mul_eq_zero.1 this with h | h
  · linarith
  · linarith

theorem exp_neg [IsStrictOrderedRing K] (F : Facts N) (x : K) : N.exp x * N.exp (-x) = 1 := by
  rw [← F.exp_add, add_neg_cancel, exp_zero F]

theorem exp_le [IsStrictOrderedRing K] (F : Facts N) {x y : K} (h : x ≤ y) : N.exp x ≤ N.exp y := by
  rcases lt_or_eq_of_le h with h | h
  · exact le_of_lt (F.exp_lt _ _ h)
  · rw [h]

theorem lt_of_exp [IsStrictOrderedRing K] (F : Facts N) {x y : K} (h : N.exp x < N.exp y) : x < y :=
  not_le.1 fun hn => absurd (exp_le F hn) (not_le.2 h)

end Verif.Mix
