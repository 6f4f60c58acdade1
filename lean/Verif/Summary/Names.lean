import Verif.Summary.Model

/-! # Lemmas about the names of summaries and tracked tensors -/

namespace Verif.Summary

theorem registeredSummaries_nodup (c : Config) : (c.registeredSummaries.map Prod.snd).Nodup := by
  obtain ⟨b1, b2, b3, b4, b5, b6, b7, b8, b9, b10, as⟩ := c
  have : ∀ b1 b2 b3 : Bool, ((Config.registeredSummaries ⟨b1, b2, b3, false, false, false, false, false, false, false, []⟩).map Prod.snd).Nodup := by decide +kernel
  exact this b1 b2 b3

theorem registeredSummaries_advantage (c : Config) : ∀ p ∈ c.registeredSummaries, p.2 ≠ "update-advantage" := by
  obtain ⟨b1, b2, b3, b4, b5, b6, b7, b8, b9, b10, as⟩ := c
  have : ∀ b1 b2 b3 : Bool, ∀ p ∈ Config.registeredSummaries ⟨b1, b2, b3, false, false, false, false, false, false, false, []⟩, p.2 ≠ "update-advantage" := by decide +kernel
  exact this b1 b2 b3

theorem usedSummaries_cases (c : Config) : ∀ p ∈ c.usedSummaries, p ∈ c.registeredSummaries ∨ (p.1 = "reward" ∧ c.estimateAdvantage = true ∧ c.advantageInLoss = true) := by
  obtain ⟨b1, b2, b3, b4, b5, b6, b7, b8, b9, b10, as⟩ := c
  have : ∀ b1 b2 b3 b6 b7 b8 : Bool, ∀ p ∈ Config.usedSummaries ⟨b1, b2, b3, false, false, b6, b7, b8, false, false, []⟩,
      p ∈ Config.registeredSummaries ⟨b1, b2, b3, false, false, b6, b7, b8, false, false, []⟩ ∨ (p.1 = "reward" ∧ b6 = true ∧ b8 = true) := by decide +kernel
  exact this b1 b2 b3 b6 b7 b8

/-- The names without those of actions. -/
def fixedTracking (c : Config) : List (String × String) := { c with actions := [] }.registeredTracking

theorem registeredTracking_eq (c : Config) : c.registeredTracking =
    fixedTracking c ++ when (c.actions.length > 1) (c.actions.flatMap fun a => [("entropy", "entropies/" ++ a), ("kl-divergence", "kl-divergences/" ++ a)]) := by
  have h : fixedTracking c = fixedTracking c := rfl
  conv at h => rhs; rw [fixedTracking, Config.registeredTracking]
  rw [Config.registeredTracking, h]
  congr 1
  exact (List.append_nil _).symm

theorem fixedTracking_names (c : Config) : ((fixedTracking c).map Prod.snd).Nodup ∧ ∀ n ∈ (fixedTracking c).map Prod.snd, '/' ∉ n.toList := by
  obtain ⟨b1, b2, b3, b4, b5, b6, b7, b8, b9, b10, as⟩ := c
  have : ∀ b1 b2 b3 b4 b5 b6 b7 b9 : Bool, ((fixedTracking ⟨b1, b2, b3, b4, b5, b6, b7, false, b9, false, []⟩).map Prod.snd).Nodup ∧
      ∀ n ∈ (fixedTracking ⟨b1, b2, b3, b4, b5, b6, b7, false, b9, false, []⟩).map Prod.snd, '/' ∉ n.toList := by decide +kernel
  exact this b1 b2 b3 b4 b5 b6 b7 b9

theorem actionNames (as : List String) :
    (as.flatMap fun a => [("entropy", "entropies/" ++ a), ("kl-divergence", "kl-divergences/" ++ a)]).map Prod.snd =
      as.flatMap fun a => ["entropies/" ++ a, "kl-divergences/" ++ a] := by
  rw [List.map_flatMap]
  rfl

theorem append_inj (p a b : String) (h : p ++ a = p ++ b) : a = b := by
  have h := congrArg String.toList h
  rw [String.toList_append, String.toList_append] at h
  exact String.toList_inj.mp (List.append_cancel_left h)

theorem heads_ne (a b : String) : "entropies/" ++ a ≠ "kl-divergences/" ++ b := by
  intro h
  have h := congrArg String.toList h
  rw [String.toList_append, String.toList_append] at h
  have h := congrArg List.head? h
  rw [show "entropies/".toList = ['e', 'n', 't', 'r', 'o', 'p', 'i', 'e', 's', '/'] from by decide +kernel,
    show "kl-divergences/".toList = ['k', 'l', '-', 'd', 'i', 'v', 'e', 'r', 'g', 'e', 'n', 'c', 'e', 's', '/'] from by decide +kernel] at h
  have h : some 'e' = some 'k' := h
  revert h
  decide

theorem actionNames_nodup : ∀ as : List String, as.Nodup → (as.flatMap fun a => ["entropies/" ++ a, "kl-divergences/" ++ a]).Nodup
  | [], _ => List.nodup_nil
  | a :: as, h => by
    rw [List.nodup_cons] at h
    rw [List.flatMap_cons, List.nodup_append]
    refine ⟨?_, actionNames_nodup as h.2, ?_⟩
    · rw [List.nodup_cons]
      exact ⟨fun e => heads_ne a a (List.mem_singleton.mp e), List.nodup_cons.mpr ⟨List.not_mem_nil, List.nodup_nil⟩⟩
    · intro x hx y hy e
      subst e
      rw [List.mem_flatMap] at hy
      obtain ⟨b, hb, hx'⟩ := hy
      have hne : a ≠ b := fun e => h.1 (e ▸ hb)
      rw [List.mem_cons, List.mem_singleton] at hx hx'
      rcases hx with rfl | rfl
      · rcases hx' with e | e
        · exact hne (append_inj _ _ _ e)
        · exact heads_ne _ _ e
      · rcases hx' with e | e
        · exact heads_ne _ _ e.symm
        · exact hne (append_inj _ _ _ e)

theorem registeredTracking_nodup (c : Config) (ha : c.actions.Nodup) : (c.registeredTracking.map Prod.snd).Nodup := by
  rw [registeredTracking_eq, List.map_append, List.nodup_append]
  refine ⟨(fixedTracking_names c).1, ?_, ?_⟩
  · rw [when]
    split
    · rw [actionNames]; exact actionNames_nodup _ ha
    · exact List.nodup_nil
  · intro x hx y hy e
    subst e
    rw [when] at hy
    split at hy
    · rw [actionNames, List.mem_flatMap] at hy
      obtain ⟨a, -, hy⟩ := hy
      refine (fixedTracking_names c).2 x hx ?_
      rw [List.mem_cons, List.mem_singleton] at hy
      rcases hy with rfl | rfl
      · rw [String.toList_append]; exact List.mem_append_left _ (by decide +kernel)
      · rw [String.toList_append]; exact List.mem_append_left _ (by decide +kernel)
    · cases hy

theorem mem_when {γ : Type} {b : Bool} {l : List γ} {x : γ} : x ∈ when b l ↔ b = true ∧ x ∈ l := by
  cases b
  · exact ⟨nofun, fun h => nomatch h.1⟩
  · exact ⟨fun h => ⟨rfl, h⟩, fun h => h.2⟩

/-- The used names without those of actions. -/
theorem usedTracking_cases (c : Config) : ∀ p ∈ c.usedTracking, p ∈ { c with actions := [] }.usedTracking ∨
    (c.stochastic = true ∧ c.actions.length > 1 ∧ ∃ a ∈ c.actions, p = ("entropy", "entropies/" ++ a) ∨ p = ("kl-divergence", "kl-divergences/" ++ a)) := by
  intro p hp
  rw [Config.usedTracking, List.mem_append] at hp
  rcases hp with hp | hp
  · left
    rw [Config.usedTracking, List.mem_append]
    exact Or.inl hp
  · rw [mem_when] at hp
    obtain ⟨hs, hp⟩ := hp
    rw [List.mem_append, List.mem_append, List.mem_append] at hp
    have hfix : ∀ q ∈ [("entropy", "entropy"), ("kl-divergence", "kl-divergence")], q ∈ { c with actions := [] }.usedTracking := by
      intro q hq
      rw [Config.usedTracking, List.mem_append, mem_when]
      exact Or.inr ⟨hs, hq⟩
    rcases hp with ((hp | hp) | hp) | hp
    · rw [mem_when, decide_eq_true_iff, List.mem_map] at hp
      obtain ⟨h1, a, h2, rfl⟩ := hp
      exact Or.inr ⟨hs, h1, a, h2, Or.inl rfl⟩
    · exact Or.inl (hfix _ (List.mem_cons.mpr (Or.inl (List.mem_singleton.mp hp))))
    · rw [mem_when, decide_eq_true_iff, List.mem_map] at hp
      obtain ⟨h1, a, h2, rfl⟩ := hp
      exact Or.inr ⟨hs, h1, a, h2, Or.inr rfl⟩
    · exact Or.inl (hfix _ (List.mem_cons_of_mem _ hp))

theorem usedTracking_subset (c : Config) : ∀ p ∈ c.usedTracking, p ∈ c.registeredTracking := by
  intro p hp
  rw [registeredTracking_eq, List.mem_append]
  rcases usedTracking_cases c p hp with h | ⟨-, h1, a, h2, h3⟩
  · left
    obtain ⟨b1, b2, b3, b4, b5, b6, b7, b8, b9, b10, as⟩ := c
    have : ∀ b1 b2 b3 b4 b5 b6 b7 b8 b9 b10 : Bool, ∀ p ∈ Config.usedTracking ⟨b1, b2, b3, b4, b5, b6, b7, b8, b9, b10, []⟩,
        p ∈ fixedTracking ⟨b1, b2, b3, b4, b5, b6, b7, b8, b9, b10, []⟩ := by decide +kernel
    exact this b1 b2 b3 b4 b5 b6 b7 b8 b9 b10 p h
  · right
    rw [mem_when, decide_eq_true_iff, List.mem_flatMap]
    refine ⟨h1, a, h2, ?_⟩
    rcases h3 with rfl | rfl
    · exact List.mem_cons_self ..
    · exact List.mem_cons_of_mem _ (List.mem_cons_self ..)

theorem usedTracking_entropy (c : Config) (hs : c.stochastic = false) : ∀ p ∈ c.usedTracking, p.2 ≠ "entropy" := by
  intro p hp
  rcases usedTracking_cases c p hp with h | ⟨h1, -⟩
  · obtain ⟨b1, b2, b3, b4, b5, b6, b7, b8, b9, b10, as⟩ := c
    have : ∀ b1 b2 b3 b4 b5 b6 b7 b8 b9 : Bool, ∀ p ∈ Config.usedTracking ⟨b1, b2, b3, b4, b5, b6, b7, b8, b9, false, []⟩, p.2 ≠ "entropy" := by decide +kernel
    dsimp only at hs
    subst hs
    exact this b1 b2 b3 b4 b5 b6 b7 b8 b9 p h
  · rw [hs] at h1; cases h1

end Verif.Summary
