import Verif.Props.Variables

/-!
# C142: initial weights of layers

The weights of dense and convolutional layers begin as orthogonal matrices times the scale, biases with zero, embeddings with small numbers.
-/

namespace Verif.Props.Weights

open Verif.Init

variable {K : Type} [Field K] [LinearOrder K]

/-- Inputs of one output (the rows of the matrix) and outputs of a layer. -/
def Sizes : Layer → Nat → Nat → Prop
  | .dense input size, n, k => n = input ∧ k = size
  | .conv1d window input size, n, k => n = window * input ∧ k = size
  | .conv2d window1 window2 input size, n, k => n = window1 * window2 * input ∧ k = size

/-- The factor: the square of the scale, twice as large if the activation is `relu`. -/
def factor (relu : Bool) (c : K) : K := if relu then 2 * c ^ 2 else c ^ 2

/-- Every positive scale is accepted, and the weights are an orthogonal matrix of this scale. -/
theorem orthogonal_weights [IsStrictOrderedRing K] (N : Numeric K) (F : Facts N) (l : Layer) (relu trainable : Bool) (c : K) (n k : Nat)
    (hs : Sizes l n k) (hp : ∀ x ∈ l.shape, 0 < x) (hc : 0 < c) :
    ∃ (v : Var K) (w : Nat → K), weights N l relu (.float c) trainable = .ok v ∧ v.shape = l.shape ∧ v.trainable = trainable ∧ v.saved = true ∧
      (∀ p, v.values p = .float (w p)) ∧ Orthogonal n k (fun i j => w (i * k + j)) (factor relu c) := by
  have hm : IsMatrix l.shape n k := by
    cases l with
    | dense input size => obtain ⟨rfl, rfl⟩ := hs; exact ⟨[n], by simp, rfl, by simp⟩
    | conv1d window input size => obtain ⟨rfl, rfl⟩ := hs; exact ⟨[window, input], by simp, rfl, by simp⟩
    | conv2d w1 w2 input size => obtain ⟨rfl, rfl⟩ := hs; exact ⟨[w1, w2, input], by simp, rfl, by simp [Nat.mul_assoc]⟩
  obtain ⟨w, hw, v, hv, _, h2, h3, h4, h5, _⟩ := Variables.orthogonal_values N F "weights".toList ⟨.float, l.shape, none⟩ relu (some (.float c)) c n k trainable true
    ⟨hp, nofun⟩ rfl hm ⟨hc, Or.inr rfl⟩
  exact ⟨v, w, hv, h2, h3, h4, fun p => by rw [h5], hw⟩

example : Variables.first 4 (weights Variables.sample (.dense 2 2) false (.float 3) true) = .ok ("weights".toList, [.float 3, .float 0, .float 0, .float 3]) := by
  decide +kernel

/-- The result of a dense layer before bias and activation. -/
def result (n k : Nat) (w : Nat → K) (x : Nat → K) (j : Nat) : K := ∑ i ∈ Finset.range n, x i * w (i * k + j)

/-- A dense layer which is not smaller than its input multiplies the sum of squares by the factor. -/
theorem preserved [IsStrictOrderedRing K] (N : Numeric K) (F : Facts N) (n k : Nat) (relu trainable : Bool) (c : K) (hn : 0 < n) (hk : n ≤ k) (hc : 0 < c) :
    ∃ (v : Var K) (w : Nat → K), weights N (.dense n k) relu (.float c) trainable = .ok v ∧ (∀ p, v.values p = .float (w p)) ∧
      ∀ x : Nat → K, ∑ j ∈ Finset.range k, result n k w x j ^ 2 = factor relu c * ∑ i ∈ Finset.range n, x i ^ 2 := by
  obtain ⟨v, w, h1, _, _, _, h2, h3⟩ := orthogonal_weights N F (.dense n k) relu trainable c n k ⟨rfl, rfl⟩
    (by simp only [Layer.shape, List.mem_cons, List.not_mem_nil, or_false]; rintro x (rfl | rfl) <;> omega) hc
  exact ⟨v, w, h1, h2, fun x => rows_norm (h3.2 hk) x⟩

/-- A smaller one multiplies it by the factor at most. -/
theorem bounded [IsStrictOrderedRing K] (N : Numeric K) (F : Facts N) (n k : Nat) (relu trainable : Bool) (c : K) (hn : 0 < n) (hk : 0 < k) (hc : 0 < c) :
    ∃ (v : Var K) (w : Nat → K), weights N (.dense n k) relu (.float c) trainable = .ok v ∧ (∀ p, v.values p = .float (w p)) ∧
      ∀ x : Nat → K, ∑ j ∈ Finset.range k, result n k w x j ^ 2 ≤ factor relu c * ∑ i ∈ Finset.range n, x i ^ 2 := by
  obtain ⟨v, w, h1, _, _, _, h2, h3⟩ := orthogonal_weights N F (.dense n k) relu trainable c n k ⟨rfl, rfl⟩
    (by simp only [Layer.shape, List.mem_cons, List.not_mem_nil, or_false]; rintro x (rfl | rfl) <;> omega) hc
  have hf : 0 < factor relu c := by
    unfold factor
    cases relu
    · simp only [Bool.false_eq_true, if_false]; positivity
    · simp only [if_true]; positivity
  refine ⟨v, w, h1, h2, fun x => ?_⟩
  rcases Nat.le_total k n with h | h
  · exact columns_norm hf (h3.1 h) x
  · exact (rows_norm (h3.2 h) x).le

example : ∃ N : Numeric ℝ, Facts N ∧ ∃ v, weights N (.dense 2 3) true (.float 1) true = .ok v := by
  obtain ⟨N, hN⟩ : ∃ N : Numeric ℝ, Facts N := by
    refine ⟨⟨Real.sqrt, fun _ _ _ => (fun i j => if i = j then 1 else 0, fun i j => if i = j then 1 else 0), fun _ => 0⟩, fun x _ => Real.sqrt_nonneg x,
      fun x hx => Real.mul_self_sqrt hx, fun n k a j hj j' hj' => ?_, fun n k a i hi i' hi' => ?_⟩
    · have : j < n := by omega
      simp [eq_comm, this]
      omega
    · have : i < k := by omega
      simp [this]
      omega
  obtain ⟨v, _, h, _⟩ := preserved N hN 2 3 true true 1 (by omega) (by omega) one_pos
  exact ⟨N, hN, v, h⟩

/-- Scales which are no positive number of type float are rejected. -/
theorem scale_rejected [IsStrictOrderedRing K] (N : Numeric K) (l : Layer) (relu trainable : Bool) (scale : Num K)
    (h : scale.kind ≠ .float ∨ ∃ x, scale = .float x ∧ x ≤ 0) : weights N l relu scale trainable = .error .tensorforce := by
  unfold weights
  apply Variables.rejected_partial
  rcases h with h | ⟨x, rfl, hx⟩
  · exact Or.inr (Or.inr (Or.inr (Or.inr (Or.inr (Or.inr (Or.inr (Or.inl ⟨scale, rfl, h, fun h' => nomatch h'.2⟩)))))))
  · refine Or.inr (Or.inr (Or.inr (Or.inr (Or.inr (Or.inr (Or.inr (Or.inr (Or.inr (Or.inr (Or.inr (Or.inr ⟨?_, Or.inr ⟨x, rfl, hx⟩⟩)))))))))))
    cases relu
    · exact Or.inl rfl
    · exact Or.inr rfl

example : Variables.first 0 (weights Variables.sample (.dense 2 2) false (.int 1) true) = .error .tensorforce := by decide +kernel

/-- Biases begin with zero. -/
theorem bias_zero (N : Numeric K) (size : Nat) (trainable : Bool) (h : 0 < size) :
    ∃ v : Var K, bias N size trainable = .ok v ∧ v.shape = [size] ∧ v.trainable = trainable ∧ v.saved = true ∧ ∀ p, v.values p = .float 0 := by
  obtain ⟨z, hz, hk, v, hv, _, h2, h3, h4, h5, _⟩ := Variables.zeros_filled N "bias".toList ⟨.float, [size], none⟩ trainable true
    ⟨fun x hx => by rw [List.mem_singleton] at hx; omega, nofun⟩ (fun _ => rfl)
  refine ⟨v, hv, h2, h3, h4, fun p => ?_⟩
  rw [h5]
  cases z with
  | bool b => cases hk
  | int z => cases hk
  | float x => exact congrArg Num.float hz

example : Variables.first 2 (bias Variables.sample 2 false) = .ok ("bias".toList, [.float 0, .float 0]) := by decide +kernel

/-- Embeddings begin with random numbers of standard deviation at most a tenth. -/
theorem embedding_normal [IsStrictOrderedRing K] (N : Numeric K) (F : Facts N) (number size : Nat) (relu trainable : Bool) (hn : 0 < number) (hs : 0 < size) :
    ∃ (v : Var K) (e : K), embedding N number size relu trainable = .ok v ∧ v.shape = [number, size] ∧ v.trainable = trainable ∧ v.saved = true ∧
      0 < e ∧ e ≤ 1 / 10 ∧ (e = 1 / 10 ∨ e ^ 2 * (if relu then (number : K) else number + size) = 2) ∧ ∀ p, v.values p = .float (N.draw p * e) := by
  obtain ⟨e, h1, h2, _, h3, v, hv, _, g2, g3, g4, g5, _⟩ := Variables.normal_values N F "embeddings".toList ⟨.float, [number, size], none⟩ relu number size trainable true
    ⟨fun x hx => by simp only [List.mem_cons, List.not_mem_nil, or_false] at hx; omega, nofun⟩ rfl (Or.inl ⟨[number], by simp, rfl, by simp⟩)
  exact ⟨v, e, hv, g2, g3, g4, h1, h2, h3, fun p => by rw [g5]⟩

example : Variables.first 2 (embedding Variables.sample 2 2 false true) = .ok ("embeddings".toList, [.float 0, .float (1 / 10)]) := by decide +kernel

end Verif.Props.Weights
