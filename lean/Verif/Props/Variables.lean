import Verif.Init.Lemmas
import Mathlib.Algebra.Order.Field.Rat
import Mathlib.Analysis.Real.Sqrt

/-!
# C141: initial values of variables

A variable begins as its initializer says.
-/

namespace Verif.Props.Variables

open Verif.Init

variable {K : Type} [Field K] [LinearOrder K]

/-- Values for the examples. -/
def sample : Numeric ℚ := ⟨fun _ => 1, fun _ _ _ => (fun i j => if i = j then 1 else 0, fun i j => if i = j then 1 else 0), fun p => p⟩

/-- The first values of a variable which has been created. -/
def first (m : Nat) (r : Except Err (Var ℚ)) : Except Err (List Char × List (Num ℚ)) :=
  match r with
  | .error e => .error e
  | .ok v => .ok (v.name, (List.range m).map v.values)

/-- A number of the type of the variable fills it. -/
theorem number_filled (N : Numeric K) (name : List Char) (s : Spec) (x : Num K) (t d : Bool) (hs : s.Known) (ht : Flags s t) (hx : x.kind = s.kind) :
    Made (create N (some name) s (.number x) none (some t) (some d)) name s t d (fun _ => x) := by
  refine made N name s _ _ t d _ hs ht ?_ rfl ?_
  · unfold checkInitializer
    simp only
    rw [if_pos (py_kind hx)]
  · unfold initial
    simp only [constant_kind hx]

example : first 2 (create sample (some "a/b".toList) ⟨.float, [2], none⟩ (.number (.float 3)) none (some true) (some true)) = .ok ("a_b".toList, [.float 3, .float 3]) := by
  decide +kernel

/-- Zeros. -/
theorem zeros_filled (N : Numeric K) (name : List Char) (s : Spec) (t d : Bool) (hs : s.Known) (ht : Flags s t) :
    ∃ z : Num K, IsZero z ∧ z.kind = s.kind ∧ Made (create N (some name) s (.name .zeros) none (some t) (some d)) name s t d (fun _ => z) := by
  refine ⟨zero s.kind, ?_, ?_, made N name s _ _ t d _ hs ht rfl rfl rfl⟩
  · cases s.kind <;> rfl
  · cases s.kind <;> rfl

example : first 2 (create sample (some "a".toList) ⟨.bool, [2], none⟩ (.name .zeros) none (some false) (some true)) = .ok ("a".toList, [.bool false, .bool false]) := by
  decide +kernel

/-- Ones. -/
theorem ones_filled (N : Numeric K) (name : List Char) (s : Spec) (t d : Bool) (hs : s.Known) (ht : Flags s t) :
    ∃ z : Num K, IsOne z ∧ z.kind = s.kind ∧ Made (create N (some name) s (.name .ones) none (some t) (some d)) name s t d (fun _ => z) := by
  refine ⟨one s.kind, ?_, ?_, made N name s _ _ t d _ hs ht rfl rfl rfl⟩
  · cases s.kind <;> rfl
  · cases s.kind <;> rfl

example : first 2 (create sample (some "a".toList) ⟨.int, [2], none⟩ (.name .ones) none (some false) (some true)) = .ok ("a".toList, [.int 1, .int 1]) := by
  decide +kernel

/-- A constant is given by the argument `initialization_scale`. -/
theorem constant_filled (N : Numeric K) (name : List Char) (s : Spec) (x : Num K) (t d : Bool) (hs : s.Known) (ht : Flags s t) (hx : x.kind = s.kind) :
    Made (create N (some name) s (.name .constant) (some x) (some t) (some d)) name s t d (fun _ => x) := by
  refine made N name s _ _ t d _ hs ht rfl ?_ ?_
  · unfold checkScale
    simp only
    rw [if_pos (py_kind hx)]
  · unfold initial constantValues
    simp only [constant_kind hx]

example : first 2 (create sample (some "a".toList) ⟨.float, [2], none⟩ (.name .constant) (some (.float (-5))) (some true) (some true)) = .ok ("a".toList, [.float (-5), .float (-5)]) := by
  decide +kernel

/-- An array of the type and the shape of the variable is copied. -/
theorem array_copied (N : Numeric K) (name : List Char) (s : Spec) (f : Nat → Num K) (t d : Bool) (hs : s.Known) (ht : Flags s t) :
    Made (create N (some name) s (.array (some s.kind) s.shape f) none (some t) (some d)) name s t d f := by
  refine made N name s _ _ t d _ hs ht ?_ rfl ?_
  · unfold checkInitializer
    simp only [if_true]
  · unfold initial
    simp only [if_true]

example : first 2 (create sample (some "a".toList) ⟨.float, [2], none⟩ (.array (some .float) [2] (fun p => .float p)) none (some true) (some true)) = .ok ("a".toList, [.float 0, .float 1]) := by
  decide +kernel

/-- Orthogonal weights: the columns, or the rows if these are fewer, are orthogonal, and the sums of their squares are the square of the scale, twice as
large for `orthogonal-relu`. -/
theorem orthogonal_values [IsStrictOrderedRing K] (N : Numeric K) (F : Facts N) (name : List Char) (s : Spec) (relu : Bool) (scale : Option (Num K)) (c : K)
    (n k : Nat) (t d : Bool) (hs : s.Known) (hk : s.kind = .float) (hm : IsMatrix s.shape n k) (hc : Gain scale c) :
    ∃ w : Nat → K, Orthogonal n k (fun i j => w (i * k + j)) (if relu then 2 * c ^ 2 else c ^ 2) ∧
      Made (create N (some name) s (.name (if relu then .orthogonalRelu else .orthogonal)) scale (some t) (some d)) name s t d (fun p => .float (w p)) := by
  obtain ⟨hr, hcol, hlen, _⟩ := matrix_rows hm
  refine ⟨fun p => orthogonal N n k (p / k) (p % k) * (if relu then N.sqrt 2 else 1) * c, ?_, ?_⟩
  · have h := orthogonal_scaled c (orthogonal_scaled (if relu then N.sqrt 2 else 1) (orthogonal_unit N F n k))
    have hg : (1 * (if relu = true then N.sqrt 2 else 1) ^ 2 * c ^ 2 : K) = if relu = true then 2 * c ^ 2 else c ^ 2 := by
      cases relu
      · simp
      · simp only [if_true]
        rw [pow_two (N.sqrt 2), F.sqrt_mul 2 (by norm_num)]
        ring
    rw [hg] at h
    refine ⟨fun hle j hj j' hj' => ?_, fun hle i hi i' hi' => ?_⟩
    · have := h.1 hle j hj j' hj'
      simp only [(flat_index hj).1, (flat_index hj).2, (flat_index hj').1, (flat_index hj').2]
      exact this
    · have := h.2 hle i hi i' hi'
      rw [← this]
      refine Finset.sum_congr rfl (fun j hj => ?_)
      rw [Finset.mem_range] at hj
      simp only [(flat_index hj).1, (flat_index hj).2]
  · have hpy : checkScale s (.name (if relu then .orthogonalRelu else .orthogonal) : Start K) scale = .ok () := by
      obtain ⟨_, h⟩ := hc
      rcases h with ⟨rfl, _⟩ | rfl
      · rfl
      · unfold checkScale
        cases relu <;> simp [isPy, hk]
    refine made N name s _ _ t d _ hs (fun _ => hk) (by cases relu <;> rfl) hpy ?_
    have hv : ∀ r : Bool, orthogonalValues N s r scale = .ok (fun p => .float (orthogonal N n k (p / k) (p % k) * (if r then N.sqrt 2 else 1) * c)) := by
      intro r
      unfold orthogonalValues
      rw [if_neg (by rw [hk]; simp), if_neg (by omega), gain_checked hc, hr, hcol]
    cases relu
    · exact hv false
    · exact hv true

/-- The facts can be met. -/
example : ∃ N : Numeric ℝ, Facts N := by
  refine ⟨⟨Real.sqrt, fun _ _ _ => (fun i j => if i = j then 1 else 0, fun i j => if i = j then 1 else 0), fun _ => 0⟩, fun x _ => Real.sqrt_nonneg x,
    fun x hx => Real.mul_self_sqrt hx, fun n k a j hj j' hj' => ?_, fun n k a i hi i' hi' => ?_⟩
  · have : j < n := by omega
    simp [eq_comm, this]
    omega
  · have : i < k := by omega
    simp [this]
    omega

example : first 6 (create sample (some "a".toList) ⟨.float, [3, 2], none⟩ (.name .orthogonal) (some (.float 2)) (some true) (some true)) =
    .ok ("a".toList, [.float 2, .float 0, .float 0, .float 2, .float 0, .float 0]) := by
  decide +kernel

/-- Normal weights: numbers with standard normal distribution times a standard deviation which is the root of two divided by the number of rows and
columns, or of rows alone for `normal-relu`, but at most a tenth. -/
theorem normal_values [IsStrictOrderedRing K] (N : Numeric K) (F : Facts N) (name : List Char) (s : Spec) (relu : Bool) (n k : Nat) (t d : Bool)
    (hs : s.Known) (hk : s.kind = .float) (hm : IsMatrix s.shape n k ∨ s.shape = [k] ∧ n = 1) :
    ∃ e : K, 0 < e ∧ e ≤ 1 / 10 ∧ e ^ 2 * (if relu then (n : K) else n + k) ≤ 2 ∧ (e = 1 / 10 ∨ e ^ 2 * (if relu then (n : K) else n + k) = 2) ∧
      Made (create N (some name) s (.name (if relu then .normalRelu else .normal)) none (some t) (some d)) name s t d (fun p => .float (N.draw p * e)) := by
  have hshape : rows s.shape = n ∧ s.shape.getLast? = some k ∧ 0 < n := by
    rcases hm with hm | ⟨h, rfl⟩
    · obtain ⟨h1, _, _, h4⟩ := matrix_rows hm
      refine ⟨h1, h4, ?_⟩
      obtain ⟨l, _, hl, rfl⟩ := hm
      have hpos : ∀ x ∈ l, 0 < x := fun x hx => hs.1 x (by rw [hl]; exact List.mem_append_left _ hx)
      exact product_pos hpos
    · rw [h]
      exact ⟨rfl, rfl, Nat.one_pos⟩
  obtain ⟨hr, hl, hn⟩ := hshape
  have key : ∀ m : K, 0 < m → 0 < min (1 / 10) (N.sqrt (2 / m)) ∧ min (1 / 10) (N.sqrt (2 / m)) ≤ 1 / 10 ∧ (min (1 / 10) (N.sqrt (2 / m))) ^ 2 * m ≤ 2 ∧
      (min (1 / 10) (N.sqrt (2 / m)) = 1 / 10 ∨ (min (1 / 10) (N.sqrt (2 / m))) ^ 2 * m = 2) := by
    intro m hm
    have h2 : (0 : K) < 2 / m := div_pos (by norm_num) hm
    have hs0 := F.sqrt_nonneg _ h2.le
    have hsq := F.sqrt_mul _ h2.le
    have hpos : 0 < N.sqrt (2 / m) := by
      rcases lt_or_eq_of_le hs0 with h | h
      · exact h
      · rw [← h] at hsq
        rw [← hsq] at h2
        simp at h2
    have heq : (N.sqrt (2 / m)) ^ 2 * m = 2 := by
      rw [pow_two, hsq]
      exact div_mul_cancel₀ 2 hm.ne'
    refine ⟨lt_min (by norm_num) hpos, min_le_left _ _, ?_, ?_⟩
    · have hle : min (1 / 10) (N.sqrt (2 / m)) ≤ N.sqrt (2 / m) := min_le_right _ _
      have h0 : 0 ≤ min (1 / 10) (N.sqrt (2 / m)) := le_min (by norm_num) hs0
      calc (min (1 / 10) (N.sqrt (2 / m))) ^ 2 * m ≤ (N.sqrt (2 / m)) ^ 2 * m := by
            exact mul_le_mul_of_nonneg_right (pow_le_pow_left₀ h0 hle 2) hm.le
        _ = 2 := heq
    · rcases min_choice (1 / 10 : K) (N.sqrt (2 / m)) with h | h
      · exact Or.inl h
      · right
        rw [h]
        exact heq
  have hn' : (0 : K) < (n : K) := by exact_mod_cast hn
  have hk' : (0 : K) ≤ (k : K) := by exact_mod_cast Nat.zero_le k
  cases relu
  · obtain ⟨h1, h2, h3, h4⟩ := key ((n : K) + k) (by linarith)
    refine ⟨_, h1, h2, h3, h4, made N name s _ _ t d _ hs (fun _ => hk) rfl rfl ?_⟩
    change normalValues N s false = _
    unfold normalValues stddev
    rw [if_neg (by rw [hk]; simp)]
    simp [hl, hr]
  · obtain ⟨h1, h2, h3, h4⟩ := key (n : K) hn'
    refine ⟨_, h1, h2, h3, h4, made N name s _ _ t d _ hs (fun _ => hk) rfl rfl ?_⟩
    change normalValues N s true = _
    unfold normalValues stddev
    rw [if_neg (by rw [hk]; simp)]
    simp [hr]

example : first 3 (create sample (some "a".toList) ⟨.float, [3, 2], none⟩ (.name .normal) none (some true) (some true)) = .ok ("a".toList, [.float 0, .float (1 / 10), .float (2 / 10)]) := by
  decide +kernel

/-- Invalid arguments are rejected: a name which is no string, a size which is not known, an initializer or a scale of the wrong kind, a flag which is no
truth value, and training of other types than float. Not so: see the violations below. -/
theorem rejected_partial [IsStrictOrderedRing K] (N : Numeric K) (name : Option (List Char)) (s : Spec) (i : Start K) (scale : Option (Num K)) (t d : Option Bool)
    (h : name = none ∨ ¬ s.Known ∨ i = .other ∨ i = .name .unknown ∨ (∃ x, i = .number x ∧ x.kind ≠ s.kind ∧ ¬ (x.kind = .bool ∧ s.kind = .int)) ∨
      (∃ k l f, i = .array k l f ∧ (k ≠ some s.kind ∨ l ≠ s.shape)) ∨
      (scale ≠ none ∧ i ≠ .name .constant ∧ i ≠ .name .orthogonal ∧ i ≠ .name .orthogonalRelu) ∨
      (∃ x, scale = some x ∧ x.kind ≠ s.kind ∧ ¬ (x.kind = .bool ∧ s.kind = .int)) ∨
      t = none ∨ (t = some true ∧ s.kind ≠ .float) ∨ d = none ∨
      ((i = .name .normal ∨ i = .name .normalRelu ∨ i = .name .orthogonal ∨ i = .name .orthogonalRelu) ∧ s.kind ≠ .float) ∨
      ((i = .name .orthogonal ∨ i = .name .orthogonalRelu) ∧ (s.shape.length < 2 ∨ ∃ x, scale = some (.float x) ∧ x ≤ 0))) :
    create N name s i scale t d = .error .tensorforce := by
  cases name with
  | none => rfl
  | some name =>
    by_cases hs : s.Known
    swap
    · unfold create
      have : underspecified s = true := by
        cases hu : underspecified s with
        | true => rfl
        | false => exact (hs ((known_iff s).mp hu)).elim
      simp only [this, if_true]
    · have hu := (known_iff s).mpr hs
      cases hi : checkInitializer s i with
      | error e =>
        rw [create_initializer hu hi, checkInitializer_error hi]
      | ok u =>
        cases hc : checkScale s i scale with
        | error e => rw [create_scale hu hi hc, checkScale_error hc]
        | ok u' =>
          cases ht : checkTrainable s t with
          | error e => rw [create_trainable hu hi hc ht, checkTrainable_error ht]
          | ok b =>
            cases d with
            | none => exact create_saved hu hi hc ht
            | some d =>
              have hf : initial N s i scale = .error .tensorforce := by
                rcases h with h | h | h | h | ⟨x, rfl, h, h'⟩ | ⟨k, l, f, rfl, h⟩ | ⟨h, h2, h3, h4⟩ | ⟨x, rfl, h, h'⟩ | h | ⟨rfl, h⟩ | h | ⟨h, h'⟩ | ⟨h, h'⟩
                · cases h
                · exact (h hs).elim
                · rw [h] at hi; cases hi
                · rw [h] at hi; cases hi
                · exact ((checkInitializer_number hi).elim h h').elim
                · rcases h with h | h
                  · exact (h (checkInitializer_array hi)).elim
                  · unfold initial
                    simp only [if_neg h]
                · exact ((checkScale_name hc h).elim h2 (fun h => h.elim h3 h4)).elim
                · exact ((checkScale_kind hc).elim h h').elim
                · rw [h] at ht; cases ht
                · exact (h (checkTrainable_float ht)).elim
                · cases h
                · exact initial_float h h'
                · exact initial_orthogonal h h' zero_lt_one
              exact create_initial hu hi hc ht hf

example : first 3 (create sample (some "a".toList) ⟨.float, [3, 2], none⟩ (.name .orthogonal) (some (.float 0)) (some true) (some true)) = .error .tensorforce := by
  decide +kernel

/-- Values have the type of the variable, if those of an array have. -/
theorem typed (N : Numeric K) (name : Option (List Char)) (s : Spec) (i : Start K) (scale : Option (Num K)) (t d : Option Bool) (v : Var K)
    (ha : ∀ k l f, i = .array (some k) l f → ∀ p, (f p).kind = k) (h : create N name s i scale t d = .ok v) : v.kind = s.kind ∧ v.shape = s.shape ∧ ∀ p, (v.values p).kind = s.kind := by
  obtain ⟨_, hi, hc, _, hf, hk, hsh⟩ := create_parts h
  exact ⟨hk, hsh, initial_typed ha hi hc hf⟩

example : (create sample (some "a".toList) ⟨.int, [2], none⟩ (.number (.int 3)) none (some false) (some true)).toOption.isSome = true := by decide +kernel

/-- Only variables of type float are trained. -/
theorem trained (N : Numeric K) (name : Option (List Char)) (s : Spec) (i : Start K) (scale : Option (Num K)) (t d : Option Bool) (v : Var K)
    (h : create N name s i scale t d = .ok v) : t = some v.trainable ∧ d = some v.saved ∧ (v.trainable = true → v.kind = .float) := by
  obtain ⟨ht, _, _, hd, _, hk, _⟩ := create_parts h
  obtain ⟨ht, hf⟩ := checkTrainable_ok ht
  exact ⟨ht, hd, fun h => by rw [hk]; exact hf h⟩

example : (create sample (some "a".toList) ⟨.float, [2], none⟩ (.name .zeros) none (some true) (some true)).toOption.isSome = true := by decide +kernel

/-- A constant without value is not rejected by Tensorforce, but fails in TensorFlow. -/
theorem constant_violation (N : Numeric K) : create N (some "a".toList) ⟨.float, [], none⟩ (.name .constant) none (some true) (some true) = .error .tensorflow := by
  rfl

/-- Neither is a single number with normal distribution. -/
theorem normal_violation (N : Numeric K) : create N (some "a".toList) ⟨.float, [], none⟩ (.name .normal) none (some true) (some true) = .error .index := by
  rfl

/-- Nor is a truth value for an integer. -/
theorem truth_violation (N : Numeric K) : create N (some "a".toList) ⟨.int, [], none⟩ (.number (.bool true)) none (some false) (some true) = .error .tensorflow := by
  rfl

end Verif.Props.Variables
