import Verif.Policy.Lemmas

/-! # Lemmas about the categorical distribution -/

namespace Verif.Policy

variable {K : Type} [Field K] [LinearOrder K]

/-- Logits before masking. -/
def rawLogits (f : Fns K) (raw : Option K) (vs : List K) : List K :=
  match raw with
  | none => vs
  | some x => vs.map fun v => v / softplusScale f x

theorem params_probabilities (f : Fns K) (raw : Option K) (mask : Option (List Bool))
    (vs : List K) :
    (categoricalParams f raw mask vs).probabilities =
      softmax f (applyMask mask (rawLogits f raw vs)) := by
  cases raw <;> rfl

theorem params_logits (f : Fns K) (raw : Option K) (mask : Option (List Bool)) (vs : List K) :
    (categoricalParams f raw mask vs).logits =
      (categoricalParams f raw mask vs).probabilities.map fun p => f.log (p + eps) := by
  cases raw <;> rfl

theorem params_actionValues (f : Fns K) (raw : Option K) (mask : Option (List Bool))
    (vs : List K) : (categoricalParams f raw mask vs).actionValues = applyMask mask vs := by
  cases raw <;> rfl

theorem rawLogits_length (f : Fns K) (raw : Option K) (vs : List K) :
    (rawLogits f raw vs).length = vs.length := by
  cases raw <;> simp [rawLogits]

variable [IsStrictOrderedRing K]

theorem masked_length (mask : Option (List Bool)) (xs : List K)
    (h : ∀ m, mask = some m → m.length = xs.length) : (applyMask mask xs).length = xs.length := by
  cases mask with
  | none => rfl
  | some m => exact applyMask_length m xs (h m rfl)

theorem params_length (f : Fns K) (raw : Option K) (mask : Option (List Bool)) (vs : List K)
    (h : ∀ m, mask = some m → m.length = vs.length) :
    (categoricalParams f raw mask vs).probabilities.length = vs.length := by
  rw [params_probabilities, softmax_length, masked_length, rawLogits_length]
  rw [rawLogits_length]
  exact h

theorem tempLogits_getElem (f : Fns K) (raw : Option K) (mask : Option (List Bool))
    (vs : List K) (t : K) (i : Nat) {p : K}
    (h : (categoricalParams f raw mask vs).probabilities[i]? = some p) :
    (tempLogits (categoricalParams f raw mask vs) t)[i]? =
      some (if p < eps then floatMin else f.log (p + eps) / (t + eps)) := by
  simp only [tempLogits, List.getElem?_zipWith, params_logits, List.getElem?_map, h,
    Option.map_some]

/-- A logit of a moderate network output is moderate. -/
theorem rawLogits_ge {f : Fns K} (hf : Laws f) (raw : Option K) (vs : List K)
    (h : ∀ v ∈ vs, -(10 ^ 30) ≤ v) : ∀ l ∈ rawLogits f raw vs, -(10 ^ 31) ≤ l := by
  intro l hl
  cases raw with
  | none =>
    have := h l hl
    linarith
  | some x =>
    obtain ⟨v, hv, rfl⟩ := List.mem_map.1 hl
    have h1 := softplusScale_ge hf x
    have h2 := h v hv
    rw [le_div_iff₀ (softplusScale_pos hf x)]
    linarith

/-- The action which the mode picks has the first greatest value among the allowed ones. -/
theorem mode_allowed (m : List Bool) (vs : List K) (hl : m.length = vs.length) (hm : true ∈ m)
    (hv : ∀ v ∈ vs, -(10 ^ 30) ≤ v) : m[argmax (applyMask (some m) vs)]? = some true := by
  obtain ⟨j, hj⟩ := List.mem_iff_getElem?.1 hm
  have hjl : j < vs.length := by
    have := (List.getElem?_eq_some_iff.1 hj).1
    omega
  have hjv := applyMask_getElem m vs j hj (List.getElem?_eq_getElem hjl)
  rw [if_pos rfl] at hjv
  have hne : applyMask (some m) vs ≠ [] := by
    intro h
    rw [h] at hjv
    simp at hjv
  have hi := argmax_lt _ hne
  rw [applyMask_length m vs hl] at hi
  have him : argmax (applyMask (some m) vs) < m.length := by omega
  cases hb : m[argmax (applyMask (some m) vs)] with
  | true => rw [List.getElem?_eq_getElem him, hb]
  | false =>
    exfalso
    have h1 := applyMask_getElem m vs _ (b := false)
      (by rw [List.getElem?_eq_getElem him, hb]) (List.getElem?_eq_getElem hi)
    rw [if_neg (by decide)] at h1
    have h2 := argmax_ge _ hne h1 _ (List.mem_of_getElem? hjv)
    have h3 := hv _ (List.getElem_mem hjl)
    have h4 := floatMin_lt (K := K)
    linarith

/-- A masked action has a probability below `eps`. -/
theorem masked_probability {f : Fns K} (hf : Laws f) (raw : Option K) (m : List Bool)
    (vs : List K) (hl : m.length = vs.length) (hm : true ∈ m) (hv : ∀ v ∈ vs, -(10 ^ 30) ≤ v)
    {i : Nat} {p : K} (hi : m[i]? = some false)
    (hp : (categoricalParams f raw (some m) vs).probabilities[i]? = some p) : p < eps := by
  rw [params_probabilities] at hp
  obtain ⟨j, hj⟩ := List.mem_iff_getElem?.1 hm
  have hil : i < (rawLogits f raw vs).length := by
    rw [rawLogits_length]
    have := (List.getElem?_eq_some_iff.1 hi).1
    omega
  have hjl : j < (rawLogits f raw vs).length := by
    rw [rawLogits_length]
    have := (List.getElem?_eq_some_iff.1 hj).1
    omega
  have h1 := applyMask_getElem m _ i hi (List.getElem?_eq_getElem hil)
  have h2 := applyMask_getElem m _ j hj (List.getElem?_eq_getElem hjl)
  rw [if_neg (by decide)] at h1
  rw [if_pos rfl] at h2
  refine softmax_far hf _ h1 (List.mem_of_getElem? h2) ?_ hp
  have h3 := rawLogits_ge hf raw vs hv _ (List.getElem_mem hjl)
  have h4 := floatMin_lt (K := K)
  linarith

/-- A sampled action has a probability of at least `eps`, if some action has. -/
theorem sample_probability {f : Fns K} (hf : Laws f) (raw : Option K)
    (mask : Option (List Bool)) (vs us : List K) (t : K)
    (ht : eps ≤ t) (hm : ∀ m, mask = some m → m.length = vs.length)
    (hu : us.length = vs.length) (hus : ∀ u ∈ us, eps ≤ u ∧ u < 1 - eps)
    {j : Nat} {q : K} (hq : (categoricalParams f raw mask vs).probabilities[j]? = some q)
    (hqe : eps ≤ q) :
    let i := categoricalSample f (categoricalParams f raw mask vs) t us
    i < vs.length ∧
      ∀ p, (categoricalParams f raw mask vs).probabilities[i]? = some p → eps ≤ p := by
  intro i
  have hpl := params_length f raw mask vs hm
  have hjl : j < vs.length := by
    have := (List.getElem?_eq_some_iff.1 hq).1
    omega
  have key : ∀ (k : Nat) (p : K), k < vs.length →
      (categoricalParams f raw mask vs).probabilities[k]? = some p →
      ∃ u, eps ≤ u ∧ u < 1 - eps ∧
      (List.zipWith (· + ·) (tempLogits (categoricalParams f raw mask vs) t)
        (us.map (gumbel f)))[k]? =
        some ((if p < eps then floatMin else f.log (p + eps) / (t + eps)) + gumbel f u) := by
    intro k p hk hp
    have hku : k < us.length := by omega
    obtain ⟨h1, h2⟩ := hus _ (List.getElem_mem hku)
    refine ⟨us[k], h1, h2, ?_⟩
    simp only [List.getElem?_zipWith, tempLogits_getElem f raw mask vs t k hp, List.getElem?_map,
      List.getElem?_eq_getElem hku, Option.map_some]
  have hi : i = argmax (List.zipWith (· + ·) (tempLogits (categoricalParams f raw mask vs) t)
      (us.map (gumbel f))) := by
    show categoricalSample _ _ _ _ = _
    rw [categoricalSample, if_neg (not_lt.2 ht)]
  obtain ⟨u, hu1, hu2, hju⟩ := key j q hjl hq
  have hne : List.zipWith (· + ·) (tempLogits (categoricalParams f raw mask vs) t)
      (us.map (gumbel f)) ≠ [] := by
    intro h
    rw [h] at hju
    simp at hju
  have hil : i < vs.length := by
    have h := argmax_lt _ hne
    rw [← hi] at h
    have hle : (List.zipWith (· + ·) (tempLogits (categoricalParams f raw mask vs) t)
        (us.map (gumbel f))).length ≤ us.length := by
      rw [List.length_zipWith, List.length_map]
      exact Nat.min_le_right ..
    omega
  refine ⟨hil, ?_⟩
  intro p hp
  by_contra hlt
  have hlt := not_le.1 hlt
  obtain ⟨u', hu1', hu2', hiu⟩ := key i p hil hp
  rw [if_pos hlt] at hiu
  rw [if_neg (not_lt.2 hqe)] at hju
  have h1 := argmax_ge _ hne (by rw [← hi]; exact hiu) _ (List.mem_of_getElem? hju)
  have h2 := gumbel_le hf hu1' hu2'
  have h3 := gumbel_ge hf hu1 hu2
  have h4 := floatMin_lt (K := K)
  have h5 := hf.log_mono eps (q + eps) eps_pos (by linarith [eps_pos (K := K)])
  have h6 := hf.log_eps
  have h7 : -(14 * 1000000) ≤ f.log (q + eps) / (t + eps) := by
    have h8 : (0 : K) < t + eps := by linarith [eps_pos (K := K)]
    rw [le_div_iff₀ h8]
    have h9 : (1 : K) ≤ 1000000 * (t + eps) := by
      have : (1000000 : K) * eps = 1 := by unfold eps; norm_num
      linarith [eps_pos (K := K)]
    linarith
  linarith

/-- Some action has a probability of at least `eps`, if there are at most a million. -/
theorem params_some {f : Fns K} (hf : Laws f) (raw : Option K) (mask : Option (List Bool))
    (vs : List K) (hv : vs ≠ []) (hm : ∀ m, mask = some m → m.length = vs.length)
    (hn : vs.length ≤ 1000000) :
    ∃ (j : Nat) (q : K),
      (categoricalParams f raw mask vs).probabilities[j]? = some q ∧ eps ≤ q := by
  have hl : (applyMask mask (rawLogits f raw vs)).length = vs.length := by
    rw [masked_length, rawLogits_length]
    rw [rawLogits_length]
    exact hm
  rw [params_probabilities]
  refine softmax_some hf _ ?_ (by omega)
  intro h
  rw [h] at hl
  exact hv (List.length_eq_zero_iff.1 hl.symm)

theorem sample_lt (f : Fns K) (p : CategoricalParams K) (t : K) (us : List K) (n : Nat)
    (hn : 0 < n) (ha : p.actionValues.length = n) (hp : p.probabilities.length = n)
    (hl : p.logits.length = n) (hu : us.length = n) : categoricalSample f p t us < n := by
  unfold categoricalSample
  split
  · rw [← ha]
    refine argmax_lt _ ?_
    intro h
    rw [h] at ha
    simp at ha
    omega
  · have h : (List.zipWith (· + ·) (tempLogits p t) (us.map (gumbel f))).length = n := by
      simp [tempLogits, hp, hl, hu]
    rw [← h]
    refine argmax_lt _ ?_
    intro h'
    rw [h'] at h
    simp at h
    omega

/-! ### Many equal values -/

theorem argmaxFrom_replicate (b : K) (at_ : Nat) : ∀ n i : Nat,
    argmaxFrom b at_ i (List.replicate n b) = at_
  | 0, _ => rfl
  | n + 1, i => by
    rw [List.replicate_succ, argmaxFrom, if_neg (lt_irrefl b)]
    exact argmaxFrom_replicate b at_ n (i + 1)

theorem argmax_replicate (b : K) (n : Nat) : argmax (List.replicate (n + 1) b) = 0 := by
  rw [List.replicate_succ, argmax]
  exact argmaxFrom_replicate b 0 n 1

theorem zipWith_const {α β γ : Type} (g : α → β → γ) (c : γ) : ∀ (xs : List α) (ys : List β),
    xs.length = ys.length → (∀ x ∈ xs, ∀ y, g x y = c) →
    List.zipWith g xs ys = List.replicate xs.length c
  | [], [], _, _ => rfl
  | x :: xs, y :: ys, hl, h => by
    rw [List.zipWith_cons_cons, h x (List.mem_cons_self ..) y, List.length_cons,
      List.replicate_succ, zipWith_const g c xs ys (by simpa using hl)
        (fun x' hx' => h x' (List.mem_cons_of_mem _ hx'))]

/-- If all probabilities are below `eps` and the random numbers are equal, sampling gives 0. -/
theorem sample_impossible (f : Fns K) (p : CategoricalParams K) (t u : K) (n : Nat)
    (ht : eps ≤ t) (hl : p.logits.length = p.probabilities.length)
    (hn : p.probabilities.length = n + 1) (h : ∀ q ∈ p.probabilities, q < eps) :
    categoricalSample f p t (List.replicate (n + 1) u) = 0 := by
  have h1 : tempLogits p t = List.replicate (n + 1) floatMin := by
    rw [tempLogits, zipWith_const _ floatMin _ _ hl.symm, hn]
    intro x hx y
    rw [if_pos (h x hx)]
  rw [categoricalSample, if_neg (not_lt.2 ht), h1, List.map_replicate,
    List.zipWith_replicate, Nat.min_self]
  exact argmax_replicate _ n

/-- Probabilities of a masked value followed by more than a million allowed ones. -/
theorem wide_probabilities {f : Fns K} (hf : Laws f) (n : Nat) (hn : 1000000 < n) :
    ∀ q ∈ (categoricalParams f none (some (false :: List.replicate n true))
      (List.replicate (n + 1) 0)).probabilities, q < eps := by
  have hL : applyMask (some (false :: List.replicate n true)) (List.replicate (n + 1) (0 : K)) =
      floatMin :: List.replicate n 0 := by
    rw [applyMask, List.replicate_succ, List.zipWith_cons_cons, List.zipWith_replicate,
      Nat.min_self]
    rfl
  have hsum := softmax_sum hf (floatMin :: List.replicate n (0 : K)) (by simp)
  have hnn := softmax_nonneg hf (floatMin :: List.replicate n (0 : K))
  intro q hq
  obtain ⟨i, hi⟩ := List.mem_iff_getElem?.1 hq
  cases i with
  | zero =>
    refine masked_probability hf none _ _ (by simp) ?_ ?_ (i := 0) rfl hi
    · refine List.mem_cons_of_mem _ (List.mem_replicate.2 ⟨by omega, rfl⟩)
    · intro v hv
      rw [(List.mem_replicate.1 hv).2]
      norm_num
  | succ i =>
    rw [params_probabilities] at hi
    have e : rawLogits f none (List.replicate (n + 1) (0 : K)) = List.replicate (n + 1) 0 := rfl
    rw [e, hL] at hi
    have hmap : softmax f (floatMin :: List.replicate n (0 : K)) =
        (f.exp (floatMin - maximum (floatMin :: List.replicate n (0 : K))) /
          (exps f (floatMin :: List.replicate n (0 : K))).sum) ::
        List.replicate n (f.exp (0 - maximum (floatMin :: List.replicate n (0 : K))) /
          (exps f (floatMin :: List.replicate n (0 : K))).sum) := by
      rw [softmax_eq]
      simp only [exps, List.map_cons, List.map_replicate]
    generalize f.exp (floatMin - maximum (floatMin :: List.replicate n (0 : K))) /
          (exps f (floatMin :: List.replicate n (0 : K))).sum = a at hmap
    generalize f.exp (0 - maximum (floatMin :: List.replicate n (0 : K))) /
          (exps f (floatMin :: List.replicate n (0 : K))).sum = b at hmap
    rw [hmap] at hi hsum hnn
    rw [List.getElem?_cons_succ] at hi
    have hqb := (List.mem_replicate.1 (List.mem_of_getElem? hi)).2
    rw [hqb]
    rw [List.sum_cons, List.sum_replicate, nsmul_eq_mul] at hsum
    have ha := hnn a (List.mem_cons_self ..)
    have hb := hnn b (List.mem_cons_of_mem _ (List.mem_replicate.2 ⟨by omega, rfl⟩))
    have hn' : (1000001 : K) ≤ n := by exact_mod_cast hn
    have h1 := mul_le_mul_of_nonneg_right hn' hb
    unfold eps
    rw [lt_div_iff₀ (by norm_num)]
    linarith

end Verif.Policy
