import Verif.Layer.Transform
import Verif.Layer.ShapeLemmas

namespace Verif.Layer

theorem compatible_batch (b : Dim) (K : List Nat) : compatible (none :: K.map some) (b :: K.map some) = true := by
  rw [compatible]; exact compatible_known.mpr rfl

/-- `TransformationBase.apply` on a tensor with channels. -/
theorem base_eq_dropout (l : TLayer) (lead : List Nat) (b : Dim) (steps : List Step) :
    l.base lead ⟨b :: lead.map some ++ [some l.channels], steps⟩ = optionally (l.dropout = true) dropOut ⟨b :: (l.announced lead).map some,
      steps ++ (if l.bias then [Step.bias] else []) ++ (if l.size = 0 then [Step.squeeze] else []) ++ (if l.activation then [Step.activation] else [])⟩ := by
  have e1 : ∀ st, optionally (l.bias = true) (addBias l.channels) ⟨b :: lead.map some ++ [some l.channels], st⟩ =
      .ok ⟨b :: lead.map some ++ [some l.channels], st ++ if l.bias then [Step.bias] else []⟩ := by
    intro st
    unfold optionally
    split
    · unfold addBias
      dsimp only
      rw [if_neg (by simp), List.getLast?_concat]
      simp
    · simp
  have e2 : ∀ st, optionally l.squeeze removeAxis ⟨b :: lead.map some ++ [some l.channels], st⟩ =
      .ok ⟨b :: (l.announced lead).map some, st ++ if l.size = 0 then [Step.squeeze] else []⟩ := by
    intro st
    unfold optionally TLayer.announced
    by_cases h : l.squeeze
    · have h' : l.size = 0 := h
      have hc : l.channels = 1 := by unfold TLayer.channels; omega
      rw [if_pos h, if_pos h, if_pos h', hc]
      unfold removeAxis
      dsimp only
      rw [List.getLast?_concat]
      dsimp only
      rw [if_pos rfl, List.dropLast_concat]
    · have h' : ¬ l.size = 0 := h
      rw [if_neg h, if_neg h, if_neg h']
      simp
  have e3 : ∀ st, optionally (l.activation = true) (activate (l.announced lead)) ⟨b :: (l.announced lead).map some, st⟩ =
      .ok ⟨b :: (l.announced lead).map some, st ++ if l.activation then [Step.activation] else []⟩ := by
    intro st
    unfold optionally activate
    dsimp only
    rw [if_pos (compatible_batch b _)]
    split <;> simp
  unfold TLayer.base
  rw [e1]; dsimp only
  rw [e2]; dsimp only
  rw [e3]

theorem base_eq {l : TLayer} (hd : l.dropout = false) (lead : List Nat) (b : Dim) (steps : List Step) :
    l.base lead ⟨b :: lead.map some ++ [some l.channels], steps⟩ = .ok ⟨b :: (l.announced lead).map some,
      steps ++ (if l.bias then [Step.bias] else []) ++ (if l.size = 0 then [Step.squeeze] else []) ++ (if l.activation then [Step.activation] else [])⟩ := by
  rw [base_eq_dropout, optionally, if_neg (by rw [hd]; decide)]

theorem announced_shape (l : TLayer) (lead : List Nat) (b : Dim) : b :: (l.announced lead).map some = l.expectedShape lead b := by
  unfold TLayer.announced TLayer.expectedShape
  by_cases h : l.squeeze
  · rw [if_pos h, if_pos (show l.size = 0 from h)]; simp
  · rw [if_neg h, if_neg (show ¬ l.size = 0 from h)]; simp [TLayer.channels]

end Verif.Layer
