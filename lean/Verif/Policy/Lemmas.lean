import Verif.Policy.Spec
import Mathlib.Algebra.Order.BigOperators.Group.List
import Mathlib.Tactic.Linarith
import Mathlib.Tactic.Positivity
import Mathlib.Tactic.FieldSimp
import Mathlib.Tactic.Ring
import Mathlib.Tactic.NormNum

/-! # Lemmas for the policy properties -/

namespace Verif.Policy

variable {K : Type} [Field K] [LinearOrder K]

/-! ### argmax -/

theorem argmaxFrom_spec (xs : List K) : ∀ (pre : List K) (best : K) (at_ : Nat),
    at_ < pre.length → pre[at_]? = some best → (∀ y ∈ pre, y ≤ best) →
    (∀ j y, j < at_ → pre[j]? = some y → y < best) →
    let i := argmaxFrom best at_ pre.length xs
    i < (pre ++ xs).length ∧ ∃ b, (pre ++ xs)[i]? = some b ∧ (∀ y ∈ pre ++ xs, y ≤ b) ∧
      ∀ j y, j < i → (pre ++ xs)[j]? = some y → y < b := by
  induction xs with
  | nil =>
    intro pre best at_ h1 h2 h3 h4
    simp only [argmaxFrom, List.append_nil]
    exact ⟨h1, best, h2, h3, h4⟩
  | cons x xs ih =>
    intro pre best at_ h1 h2 h3 h4
    have e : pre ++ x :: xs = (pre ++ [x]) ++ xs := by simp
    have el : pre.length + 1 = (pre ++ [x]).length := by simp
    simp only [argmaxFrom]
    rw [e, el]
    split
    · rename_i h
      refine ih (pre ++ [x]) x pre.length (by simp) (by simp) ?_ ?_
      · intro y hy
        rcases List.mem_append.1 hy with hy | hy
        · exact le_of_lt (lt_of_le_of_lt (h3 y hy) h)
        · exact le_of_eq (List.mem_singleton.1 hy)
      · intro j y hj hy
        rw [List.getElem?_append_left hj] at hy
        exact lt_of_le_of_lt (h3 y (List.mem_of_getElem? hy)) h
    · rename_i h
      have h := not_lt.1 h
      refine ih (pre ++ [x]) best at_ (by simp; omega)
        (by rw [List.getElem?_append_left h1]; exact h2) ?_ ?_
      · intro y hy
        rcases List.mem_append.1 hy with hy | hy
        · exact h3 y hy
        · rw [List.mem_singleton.1 hy]; exact h
      · intro j y hj hy
        rw [List.getElem?_append_left (by omega)] at hy
        exact h4 j y hj hy

/-- The entry at `argmax` is the first greatest one. -/
theorem argmax_spec (xs : List K) (h : xs ≠ []) :
    argmax xs < xs.length ∧ ∃ b, xs[argmax xs]? = some b ∧ (∀ y ∈ xs, y ≤ b) ∧
      ∀ j y, j < argmax xs → xs[j]? = some y → y < b := by
  cases xs with
  | nil => exact absurd rfl h
  | cons x xs =>
    have := argmaxFrom_spec xs [x] x 0 (by simp) (by simp) (by simp)
      (by intro j y hj; omega)
    simpa [argmax] using this

theorem argmax_lt (xs : List K) (h : xs ≠ []) : argmax xs < xs.length := (argmax_spec xs h).1

theorem argmax_ge (xs : List K) (h : xs ≠ []) {b : K} (hb : xs[argmax xs]? = some b) :
    ∀ y ∈ xs, y ≤ b := by
  obtain ⟨-, b', h1, h2, -⟩ := argmax_spec xs h
  rw [hb] at h1
  cases h1
  exact h2

/-! ### maximum -/

theorem maximum_mem : ∀ xs : List K, xs ≠ [] → maximum xs ∈ xs
  | [], h => absurd rfl h
  | [x], _ => by simp [maximum]
  | x :: y :: xs, _ => by
    simp only [maximum]
    rcases le_total x (maximum (y :: xs)) with h | h
    · rw [max_eq_right h]
      exact List.mem_cons_of_mem _ (maximum_mem (y :: xs) (by simp))
    · rw [max_eq_left h]
      exact List.mem_cons_self ..

theorem le_maximum : ∀ (xs : List K), ∀ x ∈ xs, x ≤ maximum xs
  | [], x, h => by simp at h
  | [y], x, h => by
    rw [List.mem_singleton.1 h]
    exact le_refl _
  | y :: z :: xs, x, h => by
    simp only [maximum]
    rcases List.mem_cons.1 h with rfl | h
    · exact le_max_left ..
    · exact le_trans (le_maximum (z :: xs) x h) (le_max_right ..)

variable [IsStrictOrderedRing K]

theorem eps_pos : (0 : K) < eps := by unfold eps; positivity

theorem eps_lt : (eps : K) < 1 / 2 := by unfold eps; norm_num

theorem floatMin_lt : (floatMin : K) < -(10 ^ 37) := by unfold floatMin; norm_num

/-! ### Sums -/

theorem sum_le_length (xs : List K) (h : ∀ x ∈ xs, x ≤ 1) : xs.sum ≤ (xs.length : K) := by
  induction xs with
  | nil => simp
  | cons x xs ih =>
    have h1 := h x (List.mem_cons_self ..)
    have h2 := ih fun y hy => h y (List.mem_cons_of_mem _ hy)
    simp only [List.sum_cons, List.length_cons, Nat.cast_add, Nat.cast_one]
    linarith

theorem sum_nonneg' (xs : List K) (h : ∀ x ∈ xs, 0 ≤ x) : 0 ≤ xs.sum := by
  induction xs with
  | nil => simp
  | cons x xs ih =>
    have h1 := h x (List.mem_cons_self ..)
    have h2 := ih fun y hy => h y (List.mem_cons_of_mem _ hy)
    simp only [List.sum_cons]
    linarith

theorem le_sum_of_mem (xs : List K) (h : ∀ x ∈ xs, 0 ≤ x) : ∀ x ∈ xs, x ≤ xs.sum := by
  induction xs with
  | nil => intro x hx; simp at hx
  | cons y xs ih =>
    have h1 := h y (List.mem_cons_self ..)
    have h2 : ∀ x ∈ xs, 0 ≤ x := fun z hz => h z (List.mem_cons_of_mem _ hz)
    intro x hx
    simp only [List.sum_cons]
    rcases List.mem_cons.1 hx with rfl | hx
    · linarith [sum_nonneg' xs h2]
    · linarith [ih h2 x hx]

theorem sum_map_div (xs : List K) (d : K) : (xs.map fun x => x / d).sum = xs.sum / d := by
  induction xs with
  | nil => simp
  | cons x xs ih => simp only [List.map_cons, List.sum_cons, ih, add_div]

/-! ### softmax -/

/-- The exponentials which softmax divides by their sum. -/
def exps (f : Fns K) (l : List K) : List K := l.map fun x => f.exp (x - maximum l)

theorem softmax_eq (f : Fns K) (l : List K) :
    softmax f l = (exps f l).map fun e => e / (exps f l).sum := rfl

theorem softmax_length (f : Fns K) (l : List K) : (softmax f l).length = l.length := by
  simp [softmax_eq, exps]

theorem exps_nonneg {f : Fns K} (hf : Laws f) (l : List K) : ∀ e ∈ exps f l, 0 ≤ e := by
  intro e he
  obtain ⟨x, -, rfl⟩ := List.mem_map.1 he
  exact hf.exp_nonneg _

theorem exps_le_one {f : Fns K} (hf : Laws f) (l : List K) : ∀ e ∈ exps f l, e ≤ 1 := by
  intro e he
  obtain ⟨x, hx, rfl⟩ := List.mem_map.1 he
  rw [← hf.exp_zero]
  exact hf.exp_mono _ _ (by linarith [le_maximum l x hx])

theorem one_le_exps {f : Fns K} (hf : Laws f) (l : List K) (h : l ≠ []) : 1 ≤ (exps f l).sum := by
  have : (1 : K) ∈ exps f l := by
    refine List.mem_map.2 ⟨_, maximum_mem l h, ?_⟩
    rw [sub_self, hf.exp_zero]
  exact le_sum_of_mem _ (exps_nonneg hf l) _ this

theorem exps_sum_le {f : Fns K} (hf : Laws f) (l : List K) : (exps f l).sum ≤ (l.length : K) := by
  have := sum_le_length (exps f l) (exps_le_one hf l)
  simpa [exps] using this

theorem softmax_nonneg {f : Fns K} (hf : Laws f) (l : List K) : ∀ p ∈ softmax f l, 0 ≤ p := by
  intro p hp
  rw [softmax_eq] at hp
  obtain ⟨e, he, rfl⟩ := List.mem_map.1 hp
  exact div_nonneg (exps_nonneg hf l e he) (sum_nonneg' _ (exps_nonneg hf l))

theorem softmax_sum {f : Fns K} (hf : Laws f) (l : List K) (h : l ≠ []) :
    (softmax f l).sum = 1 := by
  rw [softmax_eq, sum_map_div]
  exact div_self (by linarith [one_le_exps hf l h])

theorem softmax_le_one {f : Fns K} (hf : Laws f) (l : List K) (h : l ≠ []) :
    ∀ p ∈ softmax f l, p ≤ 1 := by
  intro p hp
  have := le_sum_of_mem _ (softmax_nonneg hf l) p hp
  rwa [softmax_sum hf l h] at this

theorem softmax_getElem (f : Fns K) (l : List K) (i : Nat) {x : K} (h : l[i]? = some x) :
    (softmax f l)[i]? = some (f.exp (x - maximum l) / (exps f l).sum) := by
  simp [softmax_eq, exps, List.getElem?_map, h]

/-- A greater logit has a greater probability. -/
theorem softmax_mono {f : Fns K} (hf : Laws f) (l : List K) {i j : Nat} {x y p q : K}
    (hx : l[i]? = some x) (hy : l[j]? = some y) (hxy : x ≤ y)
    (hp : (softmax f l)[i]? = some p) (hq : (softmax f l)[j]? = some q) : p ≤ q := by
  have hl : l ≠ [] := by rintro rfl; simp at hx
  rw [softmax_getElem f l i hx] at hp
  rw [softmax_getElem f l j hy] at hq
  cases hp
  cases hq
  have := one_le_exps hf l hl
  exact div_le_div_of_nonneg_right (hf.exp_mono _ _ (by linarith)) (by linarith)

/-- With at most a million values one of them has a probability of at least `eps`. -/
theorem softmax_some {f : Fns K} (hf : Laws f) (l : List K) (h : l ≠ [])
    (hn : l.length ≤ 1000000) : ∃ (i : Nat) (p : K), (softmax f l)[i]? = some p ∧ eps ≤ p := by
  obtain ⟨i, hi⟩ := List.mem_iff_getElem?.1 (maximum_mem l h)
  refine ⟨i, _, softmax_getElem f l i hi, ?_⟩
  rw [sub_self, hf.exp_zero]
  have h1 := one_le_exps hf l h
  have h2 := exps_sum_le hf l
  have h3 : (l.length : K) ≤ 1000000 := by exact_mod_cast hn
  unfold eps
  exact one_div_le_one_div_of_le (by linarith) (by linarith)

/-- A logit far below another one has a probability below `eps`. -/
theorem softmax_far {f : Fns K} (hf : Laws f) (l : List K) {i : Nat} {x y p : K}
    (hx : l[i]? = some x) (hy : y ∈ l) (hxy : x ≤ y - 14)
    (hp : (softmax f l)[i]? = some p) : p < eps := by
  have hl : l ≠ [] := by rintro rfl; simp at hx
  rw [softmax_getElem f l i hx] at hp
  cases hp
  have h1 := one_le_exps hf l hl
  have h2 : f.exp (x - maximum l) < eps :=
    lt_of_le_of_lt (hf.exp_mono _ (-14) (by linarith [le_maximum l y hy])) hf.exp_small
  rw [div_lt_iff₀ (by linarith)]
  have := mul_le_mul_of_nonneg_left h1 (le_of_lt (eps_pos (K := K)))
  linarith

/-! ### Noise and temperature -/

theorem gumbel_le {f : Fns K} (hf : Laws f) {u : K} (h1 : eps ≤ u) (h2 : u < 1 - eps) :
    gumbel f u ≤ 14 := by
  have hu : 0 < u := lt_of_lt_of_le eps_pos h1
  have h3 := hf.log_le u hu
  have h4 := hf.log_mono eps (-f.log u) eps_pos (by linarith)
  have h5 := hf.log_eps
  unfold gumbel
  linarith

theorem gumbel_ge {f : Fns K} (hf : Laws f) {u : K} (h1 : eps ≤ u) (h2 : u < 1 - eps) :
    -13 ≤ gumbel f u := by
  have hu : 0 < u := lt_of_lt_of_le eps_pos h1
  have h3 := hf.log_le u hu
  have h4 : 0 < -f.log u := by linarith [eps_pos (K := K)]
  have h5 := hf.log_le _ h4
  have h6 := hf.log_mono eps u eps_pos h1
  have h7 := hf.log_eps
  unfold gumbel
  linarith

theorem log_two_nonneg {f : Fns K} (hf : Laws f) : 0 ≤ f.log 2 := by
  rw [← hf.log_one]
  exact hf.log_mono _ _ one_pos (by norm_num)

theorem log_two_le {f : Fns K} (hf : Laws f) : f.log 2 ≤ 1 := by
  have := hf.log_le 2 (by norm_num)
  linarith

theorem softplusScale_ge {f : Fns K} (hf : Laws f) (x : K) : 1 / 6 ≤ softplusScale f x := by
  have h1 := log_two_nonneg hf
  have h2 := log_two_le hf
  have h3 := hf.softplus_nonneg (clip x (f.log eps) (-f.log eps))
  unfold softplusScale
  rw [le_div_iff₀ (by linarith)]
  linarith

theorem softplusScale_pos {f : Fns K} (hf : Laws f) (x : K) : 0 < softplusScale f x :=
  lt_of_lt_of_le (by norm_num) (softplusScale_ge hf x)

/-! ### Masks -/

theorem applyMask_length (m : List Bool) (xs : List K) (h : m.length = xs.length) :
    (applyMask (some m) xs).length = xs.length := by
  simp [applyMask, h]

theorem applyMask_getElem (m : List Bool) (xs : List K) (i : Nat) {b : Bool} {x : K}
    (hb : m[i]? = some b) (hx : xs[i]? = some x) :
    (applyMask (some m) xs)[i]? = some (if b then x else floatMin) := by
  simp only [applyMask, List.getElem?_zipWith, hb, hx]

end Verif.Policy
