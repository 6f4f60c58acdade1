import Verif.Init.Spec
import Mathlib.Algebra.Order.BigOperators.Ring.Finset
import Mathlib.Algebra.BigOperators.Fin
import Mathlib.LinearAlgebra.Matrix.SemiringInverse
import Mathlib.Tactic.Ring
import Mathlib.Tactic.Linarith

/-!
# Lemmas on initial values
-/

namespace Verif.Init

theorem known_iff (s : Spec) : underspecified s = false ↔ s.Known := by
  unfold underspecified Spec.Known
  rw [Bool.or_eq_false_iff, List.any_eq_false]
  constructor
  · rintro ⟨h, h'⟩
    refine ⟨fun x hx => ?_, fun hk hn => ?_⟩
    · have := h x hx
      simp only [beq_iff_eq] at this
      omega
    · rw [hk, hn] at h'
      revert h'
      decide
  · rintro ⟨h, h'⟩
    refine ⟨fun x hx => ?_, ?_⟩
    · have := h x hx
      simp only [beq_iff_eq]
      omega
    · cases hk : s.kind with
      | bool => rfl
      | float => rfl
      | int =>
        have := h' hk
        cases hn : s.numValues with
        | none => rfl
        | some n =>
          rw [hn] at this
          have hn0 : n ≠ 0 := fun h0 => this (by rw [h0])
          simp [hn0]

theorem product_eq (l : List Nat) (a : Nat) : l.foldl (· * ·) a = a * l.foldr (· * ·) 1 := by
  induction l generalizing a with
  | nil => simp
  | cons x l ih =>
    simp only [List.foldl_cons, List.foldr_cons]
    rw [ih, Nat.mul_assoc]

theorem product_pos {l : List Nat} (h : ∀ x ∈ l, 0 < x) : 0 < l.foldr (· * ·) 1 := by
  induction l with
  | nil => exact Nat.one_pos
  | cons x l ih => exact Nat.mul_pos (h x (List.mem_cons_self ..)) (ih (fun y hy => h y (List.mem_cons_of_mem _ hy)))

theorem matrix_rows {shape : List Nat} {n k : Nat} (h : IsMatrix shape n k) : rows shape = n ∧ columns shape = k ∧ 2 ≤ shape.length ∧ shape.getLast? = some k := by
  obtain ⟨l, hl, rfl, rfl⟩ := h
  refine ⟨?_, ?_, ?_, ?_⟩
  · unfold rows product
    rw [List.dropLast_concat, product_eq, Nat.one_mul]
  · unfold columns
    simp
  · cases l with
    | nil => exact (hl rfl).elim
    | cons x l => simp
  · simp

theorem is_matrix {shape : List Nat} (h : 2 ≤ shape.length) : ∃ n k, IsMatrix shape n k := by
  rcases List.eq_nil_or_concat shape with h' | ⟨l, k, rfl⟩
  · rw [h'] at h; simp at h
  · refine ⟨_, k, l, ?_, List.concat_eq_append, rfl⟩
    rintro rfl
    simp at h

variable {K : Type}

section
variable [Field K]

theorem columns_scaled {n k : Nat} {w : Nat → Nat → K} {g : K} (c : K) [LinearOrder K] (h : OrthogonalColumns n k w g) :
    OrthogonalColumns n k (fun i j => w i j * c) (g * c ^ 2) := by
  intro j hj j' hj'
  have := h j hj j' hj'
  have e : ∑ i ∈ Finset.range n, w i j * c * (w i j' * c) = (∑ i ∈ Finset.range n, w i j * w i j') * c ^ 2 := by
    rw [Finset.sum_mul]
    exact Finset.sum_congr rfl (fun i _ => by ring)
  rw [e, this]
  split <;> ring

theorem rows_scaled {n k : Nat} {w : Nat → Nat → K} {g : K} (c : K) [LinearOrder K] (h : OrthogonalRows n k w g) :
    OrthogonalRows n k (fun i j => w i j * c) (g * c ^ 2) := by
  intro j hj j' hj'
  have := h j hj j' hj'
  have e : ∑ i ∈ Finset.range k, w j i * c * (w j' i * c) = (∑ i ∈ Finset.range k, w j i * w j' i) * c ^ 2 := by
    rw [Finset.sum_mul]
    exact Finset.sum_congr rfl (fun i _ => by ring)
  rw [e, this]
  split <;> ring

/-- Orthonormal columns of a square matrix have orthonormal rows. -/
theorem square_rows [LinearOrder K] {n : Nat} {w : Nat → Nat → K} (h : OrthogonalColumns n n w 1) : OrthogonalRows n n w 1 := by
  let M : Matrix (Fin n) (Fin n) K := fun i j => w i j
  have h1 : M.transpose * M = 1 := by
    ext j j'
    have := h j j.2 j' j'.2
    rw [Finset.sum_range] at this
    rw [Matrix.mul_apply, Matrix.one_apply]
    change (∑ x : Fin n, w x j * w x j') = _
    rw [this]
    simp only [Fin.ext_iff]
  have h2 : M * M.transpose = 1 := by
    exact mul_eq_one_comm.mp h1
  intro i hi i' hi'
  have h3 := congrFun (congrFun h2 ⟨i, hi⟩) ⟨i', hi'⟩
  rw [Matrix.mul_apply, Matrix.one_apply] at h3
  rw [Finset.sum_range]
  change (∑ x : Fin n, w i x * w i' x) = _ at h3
  rw [h3]
  simp only [Fin.ext_iff]

end

section
variable [Field K] [LinearOrder K]

theorem orthogonal_unit (N : Numeric K) (F : Facts N) (n k : Nat) : Orthogonal n k (orthogonal N n k) 1 := by
  unfold orthogonal
  simp only
  refine ⟨fun h => ?_, fun h => ?_⟩
  · have hm : min n k = k := Nat.min_eq_right h
    rw [if_pos hm]
    have := F.left n k (fun i j => N.draw (i * k + j))
    rwa [hm] at this
  · by_cases hm : min n k = k
    · rw [if_pos hm]
      have hk : k = n := by omega
      subst hk
      have := F.left k k (fun i j => N.draw (i * k + j))
      rw [hm] at this
      exact square_rows this
    · rw [if_neg hm]
      have := F.right n k (fun i j => N.draw (i * k + j))
      rwa [Nat.min_eq_left h] at this

theorem orthogonal_scaled {n k : Nat} {w : Nat → Nat → K} {g : K} (c : K) (h : Orthogonal n k w g) : Orthogonal n k (fun i j => w i j * c) (g * c ^ 2) :=
  ⟨fun hk => columns_scaled c (h.1 hk), fun hk => rows_scaled c (h.2 hk)⟩

theorem gain_checked [IsStrictOrderedRing K] {scale : Option (Num K)} {c : K} (h : Gain scale c) : checkPositive scale = .ok c := by
  obtain ⟨hc, h⟩ := h
  rcases h with ⟨rfl, rfl⟩ | rfl
  · rfl
  · unfold checkPositive
    simp only
    by_cases h1 : c = 1
    · rw [if_pos h1, h1]
    · rw [if_neg h1, if_neg (not_le.mpr hc)]

end

/-- Entry of row `i` and column `j` in the order of memory. -/
theorem flat_index {k i j : Nat} (hj : j < k) : (i * k + j) / k = i ∧ (i * k + j) % k = j := by
  have hk : 0 < k := by omega
  constructor
  · rw [Nat.mul_comm, Nat.mul_add_div hk, Nat.div_eq_of_lt hj, Nat.add_zero]
  · rw [Nat.mul_comm, Nat.mul_add_mod, Nat.mod_eq_of_lt hj]

section
variable [Field K] [LinearOrder K]

theorem made (N : Numeric K) (name : List Char) (s : Spec) (i : Start K) (scale : Option (Num K)) (t d : Bool) (f : Nat → Num K)
    (hs : s.Known) (ht : Flags s t) (hi : checkInitializer s i = .ok ()) (hc : checkScale s i scale = .ok ()) (hf : initial N s i scale = .ok f) :
    Made (create N (some name) s i scale (some t) (some d)) name s t d f := by
  have htr : checkTrainable s (some t) = .ok t := by
    unfold checkTrainable
    simp only
    rw [if_neg]
    intro h
    rw [Bool.and_eq_true] at h
    rw [ht h.1] at h
    exact absurd h.2 (by decide)
  refine ⟨⟨cleaned name, s.kind, s.shape, t, d, f⟩, ?_, rfl, rfl, rfl, rfl, rfl, ?_, ?_, ?_⟩
  · unfold create
    simp only [(known_iff s).mpr hs, hi, hc, htr, hf]
    rfl
  · change '/' ∉ cleaned name
    unfold cleaned
    rw [List.mem_map]
    rintro ⟨c, _, h⟩
    by_cases hc : c = '/'
    · rw [if_pos hc] at h
      exact absurd h (by decide)
    · rw [if_neg hc] at h
      exact hc h
  · change (cleaned name).length = name.length
    unfold cleaned
    rw [List.length_map]
  · intro p c hp hne
    change (cleaned name)[p]? = some c
    unfold cleaned
    rw [List.getElem?_map, hp]
    simp only [Option.map_some, if_neg hne]

theorem py_kind {k : Kind} {x : Num K} (h : x.kind = k) : isPy k x = true := by
  subst h
  cases x <;> rfl

theorem constant_kind {k : Kind} {x : Num K} (h : x.kind = k) : constant k x = .ok x := by
  subst h
  cases x <;> rfl

end

section
variable [Field K] [LinearOrder K] {N : Numeric K} {name : List Char} {s : Spec} {i : Start K} {scale : Option (Num K)} {t d : Option Bool} {b : Bool} {e : Err}
  {u : Unit}

theorem create_initializer (hu : underspecified s = false) (hi : checkInitializer s i = .error e) :
    create N (some name) s i scale t d = .error e := by
  unfold create
  simp only [hu, hi]
  rfl

theorem create_scale (hu : underspecified s = false) (hi : checkInitializer s i = .ok u) (hc : checkScale s i scale = .error e) :
    create N (some name) s i scale t d = .error e := by
  unfold create
  simp only [hu, hi, hc]
  rfl

theorem create_trainable (hu : underspecified s = false) (hi : checkInitializer s i = .ok u) {u' : Unit} (hc : checkScale s i scale = .ok u')
    (ht : checkTrainable s t = .error e) : create N (some name) s i scale t d = .error e := by
  unfold create
  simp only [hu, hi, hc, ht]
  rfl

theorem create_saved (hu : underspecified s = false) (hi : checkInitializer s i = .ok u) {u' : Unit} (hc : checkScale s i scale = .ok u')
    (ht : checkTrainable s t = .ok b) : create N (some name) s i scale t none = .error .tensorforce := by
  unfold create
  simp only [hu, hi, hc, ht]
  rfl

theorem create_initial (hu : underspecified s = false) (hi : checkInitializer s i = .ok u) {u' : Unit} (hc : checkScale s i scale = .ok u')
    (ht : checkTrainable s t = .ok b) {c : Bool} (hf : initial N s i scale = .error e) : create N (some name) s i scale t (some c) = .error e := by
  unfold create
  simp only [hu, hi, hc, ht, hf]
  rfl

omit [Field K] [LinearOrder K] in
theorem checkInitializer_error (h : checkInitializer s i = .error e) : e = .tensorforce := by
  unfold checkInitializer at h
  split at h
  · split at h <;> cases h
    rfl
  · split at h <;> cases h
    rfl
  all_goals cases h <;> rfl

omit [Field K] [LinearOrder K] in
theorem checkScale_error (h : checkScale s i scale = .error e) : e = .tensorforce := by
  unfold checkScale at h
  split at h
  · cases h
  · split at h
    all_goals first
      | (split at h <;> cases h <;> rfl)
      | (cases h <;> rfl)

theorem checkTrainable_error (h : checkTrainable s t = .error e) : e = .tensorforce := by
  unfold checkTrainable at h
  split at h
  · cases h
    rfl
  · split at h <;> cases h
    rfl

omit [Field K] [LinearOrder K] in
theorem py_elim {k : Kind} {x : Num K} (h : isPy k x = true) : x.kind = k ∨ (x.kind = .bool ∧ k = .int) := by
  cases x <;> cases k <;> first | exact Or.inl rfl | exact Or.inr ⟨rfl, rfl⟩ | exact nomatch (show false = true from h)

omit [Field K] [LinearOrder K] in
theorem checkInitializer_number {x : Num K} (h : checkInitializer s (.number x) = .ok u) : x.kind = s.kind ∨ (x.kind = .bool ∧ s.kind = .int) := by
  unfold checkInitializer at h
  simp only at h
  split at h
  · exact py_elim (by assumption)
  · cases h

omit [Field K] [LinearOrder K] in
theorem checkInitializer_array {k : Option Kind} {l : List Nat} {f : Nat → Num K} (h : checkInitializer s (.array k l f) = .ok u) : k = some s.kind := by
  unfold checkInitializer at h
  simp only at h
  split at h
  · assumption
  · cases h

omit [Field K] [LinearOrder K] in
theorem checkScale_name (h : checkScale s i scale = .ok u) (hs : scale ≠ none) : i = .name .constant ∨ i = .name .orthogonal ∨ i = .name .orthogonalRelu := by
  unfold checkScale at h
  split at h
  · exact (hs rfl).elim
  · split at h
    · exact Or.inl rfl
    · exact Or.inr (Or.inl rfl)
    · exact Or.inr (Or.inr rfl)
    · cases h

omit [Field K] [LinearOrder K] in
theorem checkScale_kind {x : Num K} (h : checkScale s i (some x) = .ok u) : x.kind = s.kind ∨ (x.kind = .bool ∧ s.kind = .int) := by
  unfold checkScale at h
  simp only at h
  split at h
  · split at h
    · exact py_elim (by assumption)
    · cases h
  · split at h
    · exact py_elim (by assumption)
    · cases h
  · split at h
    · exact py_elim (by assumption)
    · cases h
  · cases h

theorem checkTrainable_float (h : checkTrainable s (some true) = .ok b) : s.kind = .float := by
  unfold checkTrainable at h
  simp only at h
  cases hk : s.kind with
  | float => rfl
  | bool => rw [hk] at h; cases h
  | int => rw [hk] at h; cases h

theorem initial_float (h : i = .name .normal ∨ i = .name .normalRelu ∨ i = .name .orthogonal ∨ i = .name .orthogonalRelu) (hk : s.kind ≠ .float) :
    initial N s i scale = .error .tensorforce := by
  rcases h with rfl | rfl | rfl | rfl <;> simp only [initial, normalValues, orthogonalValues, ne_eq, hk, not_false_eq_true, if_true]

theorem orthogonalValues_rejected {relu : Bool} (h : s.shape.length < 2 ∨ ∃ x, scale = some (.float x) ∧ x ≤ 0) (h1 : (0 : K) < 1) :
    orthogonalValues N s relu scale = .error .tensorforce := by
  unfold orthogonalValues
  by_cases hk : s.kind ≠ .float
  · rw [if_pos hk]
  · rw [if_neg hk]
    by_cases hl : s.shape.length < 2
    · rw [if_pos hl]
    · rw [if_neg hl]
      obtain ⟨x, rfl, hx⟩ := h.resolve_left hl
      have : checkPositive (some (.float x) : Option (Num K)) = .error .tensorforce := by
        unfold checkPositive
        simp only
        rw [if_neg (fun hx1 => by rw [hx1] at hx; exact absurd h1 (not_lt.mpr hx)), if_pos hx]
      simp only [this]

theorem initial_orthogonal (h : i = .name .orthogonal ∨ i = .name .orthogonalRelu) (h' : s.shape.length < 2 ∨ ∃ x, scale = some (.float x) ∧ x ≤ 0)
    (h1 : (0 : K) < 1) : initial N s i scale = .error .tensorforce := by
  rcases h with rfl | rfl <;> exact orthogonalValues_rejected h' h1

theorem create_parts {n : Option (List Char)} {v : Var K} (h : create N n s i scale t d = .ok v) :
    checkTrainable s t = .ok v.trainable ∧ checkInitializer s i = .ok () ∧ checkScale s i scale = .ok () ∧ d = some v.saved ∧ initial N s i scale = .ok v.values ∧
      v.kind = s.kind ∧ v.shape = s.shape := by
  unfold create at h
  cases n with
  | none => cases h
  | some n =>
    simp only at h
    cases hu : underspecified s with
    | true => rw [hu, if_pos rfl] at h; cases h
    | false =>
      rw [hu, if_neg (by decide)] at h
      cases hi : checkInitializer s i with
      | error e => simp only [hi] at h; cases h
      | ok u =>
        cases hc : checkScale s i scale with
        | error e => simp only [hi, hc] at h; cases h
        | ok u' =>
          cases ht : checkTrainable s t with
          | error e => simp only [hi, hc, ht] at h; cases h
          | ok b =>
            cases d with
            | none => simp only [hi, hc, ht] at h; cases h
            | some d =>
              cases hf : initial N s i scale with
              | error e => simp only [hi, hc, ht, hf] at h; cases h
              | ok f =>
                simp only [hi, hc, ht, hf] at h
                cases h
                exact ⟨rfl, rfl, rfl, rfl, rfl, rfl, rfl⟩

omit [Field K] [LinearOrder K] in
theorem constant_typed {k : Kind} {x y : Num K} (hx : x.kind = k ∨ (x.kind = .bool ∧ k = .int)) (h : constant k x = .ok y) : y.kind = k := by
  rcases hx with rfl | ⟨hx, rfl⟩
  · cases x <;> cases h <;> rfl
  · cases x with
    | bool b => cases h
    | int z => cases hx
    | float z => cases hx

theorem initial_typed {f : Nat → Num K} (ha : ∀ k l f, i = .array (some k) l f → ∀ p, (f p).kind = k) (hi : checkInitializer s i = .ok u) {u' : Unit}
    (hc : checkScale s i scale = .ok u') (hf : initial N s i scale = .ok f) (p : Nat) : (f p).kind = s.kind := by
  cases i with
  | number x =>
    unfold initial at hf
    simp only at hf
    cases hy : constant s.kind x with
    | error e => rw [hy] at hf; cases hf
    | ok y =>
      rw [hy] at hf
      cases hf
      exact constant_typed (checkInitializer_number hi) hy
  | array k l g =>
    have hk := checkInitializer_array hi
    subst hk
    unfold initial at hf
    simp only at hf
    split at hf
    · cases hf
      exact ha _ _ _ rfl p
    · cases hf
  | other => cases hi
  | name n =>
    have hfl : ∀ {b : Bool}, (normalValues N s b = .ok f ∨ orthogonalValues N s b scale = .ok f) → (f p).kind = s.kind := by
      intro b h
      have hk : s.kind = .float := by
        by_contra hk
        rcases h with h | h
        · unfold normalValues at h
          rw [if_pos hk] at h
          cases h
        · unfold orthogonalValues at h
          rw [if_pos hk] at h
          cases h
      rw [hk]
      rcases h with h | h
      · unfold normalValues at h
        rw [if_neg (by rw [hk]; simp)] at h
        cases hd : stddev N b s.shape with
        | error e => rw [hd] at h; cases h
        | ok d => rw [hd] at h; cases h; rfl
      · unfold orthogonalValues at h
        rw [if_neg (by rw [hk]; simp)] at h
        split at h
        · cases h
        · cases hd : checkPositive scale with
          | error e => rw [hd] at h; cases h
          | ok d => rw [hd] at h; cases h; rfl
    cases n with
    | unknown => cases hi
    | normal => exact hfl (b := false) (Or.inl hf)
    | normalRelu => exact hfl (b := true) (Or.inl hf)
    | orthogonal => exact hfl (b := false) (Or.inr hf)
    | orthogonalRelu => exact hfl (b := true) (Or.inr hf)
    | zeros =>
      cases hf
      change (zero s.kind : Num K).kind = s.kind
      cases s.kind <;> rfl
    | ones =>
      cases hf
      change (one s.kind : Num K).kind = s.kind
      cases s.kind <;> rfl
    | constant =>
      change constantValues s scale = .ok f at hf
      unfold constantValues at hf
      cases scale with
      | none => cases hf
      | some x =>
        simp only at hf
        cases hy : constant s.kind x with
        | error e => rw [hy] at hf; cases hf
        | ok y =>
          rw [hy] at hf
          cases hf
          exact constant_typed (checkScale_kind hc) hy

theorem checkTrainable_ok (h : checkTrainable s t = .ok b) : t = some b ∧ (b = true → s.kind = .float) := by
  cases t with
  | none => cases h
  | some c =>
    have h' := h
    unfold checkTrainable at h
    simp only at h
    split at h
    · cases h
    · cases h
      refine ⟨rfl, ?_⟩
      rintro rfl
      exact checkTrainable_float h'

end

section
variable [Field K] [LinearOrder K]

/-- The sum of the squares of the result of a matrix with orthogonal rows. -/
theorem rows_norm {n k : Nat} {w : Nat → Nat → K} {g : K} (h : OrthogonalRows n k w g) (x : Nat → K) :
    ∑ j ∈ Finset.range k, (∑ i ∈ Finset.range n, x i * w i j) ^ 2 = g * ∑ i ∈ Finset.range n, x i ^ 2 := by
  have e : ∀ j, (∑ i ∈ Finset.range n, x i * w i j) ^ 2 = ∑ i ∈ Finset.range n, ∑ i' ∈ Finset.range n, x i * x i' * (w i j * w i' j) := by
    intro j
    rw [pow_two, Finset.sum_mul_sum]
    exact Finset.sum_congr rfl (fun i _ => Finset.sum_congr rfl (fun i' _ => by ring))
  simp only [e]
  rw [Finset.sum_comm, Finset.mul_sum]
  refine Finset.sum_congr rfl (fun i hi => ?_)
  rw [Finset.sum_comm]
  have e2 : ∀ i' ∈ Finset.range n, ∑ j ∈ Finset.range k, x i * x i' * (w i j * w i' j) = if i = i' then g * x i ^ 2 else 0 := by
    intro i' hi'
    rw [← Finset.mul_sum, h i (Finset.mem_range.mp hi) i' (Finset.mem_range.mp hi')]
    split
    · rename_i he
      subst he
      ring
    · ring
  rw [Finset.sum_congr rfl e2, Finset.sum_ite_eq, if_pos hi]

/-- Bessel's inequality. -/
theorem columns_norm [IsStrictOrderedRing K] {n k : Nat} {w : Nat → Nat → K} {g : K} (hg : 0 < g) (h : OrthogonalColumns n k w g) (x : Nat → K) :
    ∑ j ∈ Finset.range k, (∑ i ∈ Finset.range n, x i * w i j) ^ 2 ≤ g * ∑ i ∈ Finset.range n, x i ^ 2 := by
  let y : Nat → K := fun j => ∑ i ∈ Finset.range n, x i * w i j
  have hz : ∑ i ∈ Finset.range n, (∑ j ∈ Finset.range k, y j * w i j) ^ 2 = g * ∑ j ∈ Finset.range k, y j ^ 2 :=
    rows_norm (w := fun j i => w i j) (n := k) (k := n) (fun j hj j' hj' => h j hj j' hj') y
  have hxy : ∑ i ∈ Finset.range n, x i * (∑ j ∈ Finset.range k, y j * w i j) = ∑ j ∈ Finset.range k, y j ^ 2 := by
    simp only [Finset.mul_sum]
    rw [Finset.sum_comm]
    refine Finset.sum_congr rfl (fun j _ => ?_)
    rw [pow_two]
    conv_rhs => rw [show y j * y j = y j * ∑ i ∈ Finset.range n, x i * w i j from rfl, Finset.mul_sum]
    exact Finset.sum_congr rfl (fun i _ => by ring)
  have h0 : 0 ≤ ∑ i ∈ Finset.range n, (g * x i - ∑ j ∈ Finset.range k, y j * w i j) ^ 2 := Finset.sum_nonneg (fun i _ => sq_nonneg _)
  have he : ∑ i ∈ Finset.range n, (g * x i - ∑ j ∈ Finset.range k, y j * w i j) ^ 2 =
      g ^ 2 * ∑ i ∈ Finset.range n, x i ^ 2 - 2 * g * (∑ i ∈ Finset.range n, x i * (∑ j ∈ Finset.range k, y j * w i j)) +
        ∑ i ∈ Finset.range n, (∑ j ∈ Finset.range k, y j * w i j) ^ 2 := by
    rw [Finset.mul_sum, Finset.mul_sum, ← Finset.sum_sub_distrib, ← Finset.sum_add_distrib]
    exact Finset.sum_congr rfl (fun i _ => by ring)
  rw [he, hxy, hz] at h0
  have h1 : 0 ≤ g * (g * (∑ i ∈ Finset.range n, x i ^ 2) - ∑ j ∈ Finset.range k, y j ^ 2) := by
    have : g ^ 2 * ∑ i ∈ Finset.range n, x i ^ 2 - 2 * g * (∑ j ∈ Finset.range k, y j ^ 2) + g * ∑ j ∈ Finset.range k, y j ^ 2 =
      g * (g * (∑ i ∈ Finset.range n, x i ^ 2) - ∑ j ∈ Finset.range k, y j ^ 2) := by ring
    rwa [this] at h0
  have h2 := nonneg_of_mul_nonneg_right h1 hg
  exact sub_nonneg.mp h2

end

end Verif.Init
