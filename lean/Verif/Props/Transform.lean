import Verif.Layer.TransformLemmas

/-! # C49: transformation layers apply bias, squeeze, activation and dropout once and in order -/

namespace Verif.Props.Transform

open Verif.Layer

/-- Every layer but `Rnn`, without dropout: each step exactly once and in order, giving the right shape. Missing: `Rnn` (`rnn_violation`), dropout
(`dropout_fails`), activation of `SelfAttention` (`attention_fails`). -/
theorem once_partial {l : TLayer} (hk : l.kind ≠ .rnn) (hd : l.dropout = false) (ha : l.kind = .attention → l.activation = false) (lead : List Nat)
    (b : Dim) : l.apply lead b = .ok ⟨l.expectedShape lead b, l.expected⟩ := by
  have hc : l.constructs := by
    rintro ⟨h1, h2 | h2⟩
    · rw [ha h1] at h2; cases h2
    · rw [hd] at h2; cases h2
  have e : l.compute lead b = l.base lead (l.core lead b) := by
    unfold TLayer.compute
    split
    · rename_i h; exact absurd h hk
    · rfl
  unfold TLayer.apply
  rw [if_pos hc, e, TLayer.core, base_eq hd]
  dsimp only
  rw [if_pos (compatible_batch b _), announced_shape]
  refine congrArg (fun s => Except.ok (Tensor.mk _ s)) ?_
  unfold TLayer.expected
  rw [hd]
  simp

example : (TLayer.mk .dense 0 true true false).apply [] none = .ok ⟨[none], [.core, .bias, .squeeze, .activation]⟩ := once_partial (by decide) rfl (by decide) _ _

/-- `Rnn` without bias and activation. -/
theorem rnn_partial {l : TLayer} (hk : l.kind = .rnn) (hs : l.size ≠ 0) (hb : l.bias = false) (ha : l.activation = false) (hd : l.dropout = false)
    (lead : List Nat) (b : Dim) : l.apply lead b = .ok ⟨l.expectedShape lead b, l.expected⟩ := by
  have hc : l.constructs := by rintro ⟨h, -⟩; rw [hk] at h; cases h
  have hann : l.announced lead = lead ++ [l.channels] := if_neg hs
  have e : b :: (l.announced lead).map some = b :: lead.map some ++ [some l.channels] := by rw [hann]; simp
  unfold TLayer.apply TLayer.compute
  rw [if_pos hc, hk]
  dsimp only
  rw [TLayer.core, base_eq hd]
  dsimp only
  rw [e, base_eq hd]
  dsimp only
  rw [if_pos (compatible_batch b _), announced_shape]
  refine congrArg (fun s => Except.ok (Tensor.mk _ s)) ?_
  unfold TLayer.expected
  rw [hb, ha, hd, if_neg hs]
  simp

example : (TLayer.mk .rnn 8 false false false).apply [] none = .ok ⟨[none, some 8], [.core]⟩ := rnn_partial rfl (by decide) rfl rfl rfl _ _

/-- `Rnn` with a size: every step twice. -/
theorem rnn_violation {l : TLayer} (hk : l.kind = .rnn) (hs : l.size ≠ 0) (hd : l.dropout = false) (lead : List Nat) (b : Dim) :
    l.apply lead b = .ok ⟨l.expectedShape lead b, .core :: ((if l.bias then [Step.bias] else []) ++ (if l.activation then [Step.activation] else []) ++
      (if l.bias then [Step.bias] else []) ++ if l.activation then [Step.activation] else [])⟩ := by
  have hc : l.constructs := by rintro ⟨h, -⟩; rw [hk] at h; cases h
  have hann : l.announced lead = lead ++ [l.channels] := if_neg hs
  have e : b :: (l.announced lead).map some = b :: lead.map some ++ [some l.channels] := by rw [hann]; simp
  unfold TLayer.apply TLayer.compute
  rw [if_pos hc, hk]
  dsimp only
  rw [TLayer.core, base_eq hd]
  dsimp only
  rw [e, base_eq hd]
  dsimp only
  rw [if_pos (compatible_batch b _), announced_shape, if_neg hs]
  simp

/-- The default configuration: bias and `tanh`. -/
example : (TLayer.mk .rnn 8 true true false).apply [] (some 3) = .ok ⟨[some 3, some 8], [.core, .bias, .activation, .bias, .activation]⟩ :=
  rnn_violation rfl (by decide) rfl _ _

/-- `Rnn` of size 0, documented as removing the axis, cannot be used. -/
theorem rnn_squeeze_violation {l : TLayer} (hk : l.kind = .rnn) (hs : l.size = 0) (t : Tensor) : l.apply [] none ≠ .ok t := by
  intro h
  have hc : l.constructs := by rintro ⟨h, -⟩; rw [hk] at h; cases h
  unfold TLayer.apply TLayer.compute at h
  rw [if_pos hc, hk] at h
  dsimp only at h
  by_cases hd : l.dropout = true
  · have : ∀ x y, l.base [] x ≠ .ok y := by
      intro x y h
      unfold TLayer.base at h
      split at h
      · cases h
      · split at h
        · cases h
        · split at h
          · cases h
          · unfold optionally at h
            rw [if_pos hd] at h
            cases h
    split at h
    · cases h
    · rename_i x hx
      split at hx
      · cases hx
      · exact this _ _ hx
  · have hd : l.dropout = false := by simpa using hd
    have hann : l.announced [] = [] := if_pos hs
    rw [TLayer.core, base_eq hd, hann] at h
    dsimp only at h
    generalize ([Step.core] ++ _ ++ _ ++ _) = st at h
    cases hb : l.bias <;> cases ha : l.activation <;>
      simp [TLayer.base, optionally, addBias, removeAxis, activate, hb, ha, hd, hann, compatible, TLayer.squeeze, hs] at h

example : (TLayer.mk .rnn 0 false true false).apply [] none ≠ .ok ⟨[none], [.core, .squeeze, .activation]⟩ := rnn_squeeze_violation rfl rfl _

/-- With a bias, the default, adding it to a tensor without channels fails. -/
theorem rnn_squeeze_bias {l : TLayer} (hk : l.kind = .rnn) (hs : l.size = 0) (hb : l.bias = true) (hd : l.dropout = false) (b : Dim) :
    l.apply [] b = .error .operation := by
  have hc : l.constructs := by rintro ⟨h, -⟩; rw [hk] at h; cases h
  have hann : l.announced [] = [] := if_pos hs
  unfold TLayer.apply TLayer.compute
  rw [if_pos hc, hk]
  dsimp only
  rw [TLayer.core, base_eq hd, hann]
  simp [TLayer.base, optionally, addBias, hb]

example : (TLayer.mk .rnn 0 true true false).apply [] none = .error .operation := rnn_squeeze_bias rfl rfl rfl rfl _

/-- No layer works with dropout. -/
theorem dropout_fails {l : TLayer} (hd : l.dropout = true) (lead : List Nat) (b : Dim) (t : Tensor) : l.apply lead b ≠ .ok t := by
  have key : ∀ x y, l.base lead x ≠ .ok y := by
    intro x y h
    unfold TLayer.base at h
    split at h
    · cases h
    · split at h
      · cases h
      · split at h
        · cases h
        · unfold optionally at h
          rw [if_pos hd] at h
          cases h
  intro h
  unfold TLayer.apply at h
  split at h
  · split at h
    · cases h
    · rename_i x hx
      unfold TLayer.compute at hx
      split at hx
      · split at hx
        · cases hx
        · exact key _ _ hx
      · exact key _ _ hx
  · cases h

example : (TLayer.mk .dense 8 true true true).apply [] none = .error .mismatch := by rfl

/-- `SelfAttention` with an activation or dropout cannot be constructed. -/
theorem attention_fails {l : TLayer} (hk : l.kind = .attention) (ha : l.activation = true ∨ l.dropout = true) (lead : List Nat) (b : Dim) :
    l.apply lead b = .error .rejected := by
  unfold TLayer.apply
  rw [if_neg (fun h => h ⟨hk, ha⟩)]

/-- All other layers can, but fail with dropout when the function is traced. -/
theorem dropout_mismatch {l : TLayer} (hk : l.kind ≠ .attention) (hd : l.dropout = true) (lead : List Nat) (b : Dim) :
    l.apply lead b = .error .mismatch := by
  have hc : l.constructs := fun h => hk h.1
  have key : l.base lead (l.core lead b) = .error .mismatch := by
    rw [TLayer.core, base_eq_dropout, optionally, if_pos hd]; rfl
  unfold TLayer.apply
  rw [if_pos hc]
  have : l.compute lead b = .error .mismatch := by
    unfold TLayer.compute
    split
    · rw [key]
    · exact key
  rw [this]

example : (TLayer.mk .attention 8 false false false).apply [4] none = .ok ⟨[none, some 4, some 8], [.core]⟩ :=
  once_partial (by decide) rfl (by decide) _ _

end Verif.Props.Transform
