import Verif.Net.Rows

/-! # Preprocessing networks -/

namespace Verif.Net

variable {α β ι : Type}

/-- The same tensors besides the input. -/
def SameNames (T : List (String × β)) (tensors : List (String × α)) : Prop :=
  ∀ t, t ≠ "state" → t ≠ "input" → (T.lookup t).isSome = (tensors.lookup t).isSome

theorem lookupAll_isSome {γ : Type} (ts : List String) (l : List (String × γ)) : (lookupAll ts l).isSome = ts.all fun t => (l.lookup t).isSome := by
  induction ts with
  | nil => rfl
  | cons t ts ih =>
    rw [lookupAll, List.all_cons, ← ih]
    cases l.lookup t <;> cases lookupAll ts l <;> rfl

theorem SameNames.all {T : List (String × β)} {tensors : List (String × α)} (h : SameNames T tensors) (ts : List String) (h1 : "state" ∉ ts)
    (h2 : "input" ∉ ts) (bs : List β) (hb : lookupAll ts T = some bs) : ∃ vs, lookupAll ts tensors = some vs := by
  have : (lookupAll ts tensors).isSome = true := by
    have hT : (lookupAll ts T).isSome = true := by rw [hb]; rfl
    rw [lookupAll_isSome, List.all_eq_true] at hT ⊢
    intro t ht
    rw [← h t (by intro e; subst e; exact h1 ht) (by intro e; subst e; exact h2 ht)]
    exact hT t ht
  exact Option.isSome_iff_exists.mp this

theorem SameNames.cons {T : List (String × β)} {tensors : List (String × α)} (h : SameNames T tensors) (t : String) (b : β) (v : α) :
    SameNames ((t, b) :: T) ((t, v) :: tensors) := by
  intro k h1 h2
  by_cases hk : k = t
  · subst hk; rw [lookup_cons_self, lookup_cons_self]; rfl
  · rw [lookup_cons_ne _ _ hk, lookup_cons_ne _ _ hk]; exact h k h1 h2

section
variable [DecidableEq β] {S : SpecFns β}

mutual

theorem runPrep_ok {allowed : Bool} (F : Fns α ι) (m : Mode) (l : LSpec) (st : Build β) (q : Obj β × Build β)
    (h : netLayer S (prepInvalid allowed) l st = .ok q) (hf : Flat l) (scope : Scope) (s : Run α ι) (hs : SameNames st.tensors s.tensors) :
    ∃ s', runPrep F m q.1 s = .ok s' ∧ chain (namedStep F m) (expand l scope).1 s = .ok s' ∧ SameNames q.2.tensors s'.tensors := by
  cases l with
  | list specs =>
    obtain ⟨os, h1, h2⟩ := netLayer_list h
    rw [Flat] at hf
    rw [h2, expand, runPrep]
    exact runPreps_ok F m specs st (os, q.2) h1 hf scope s hs
  | block name layers => rw [Flat] at hf; exact hf.elim
  | layer id name kind inner =>
    obtain ⟨r, h1, h2⟩ := netLayer_layer h
    obtain ⟨hinv, ho, -, hout, htens⟩ := added_ok h1
    have hleaf : ∃ inp out, r.1 = .leaf id name kind inp out := by
      rcases h2 with ⟨ts, rfl, h2⟩ | ⟨-, h2⟩
      · obtain ⟨bs, out, -, -, -, -, h3, -⟩ := retrieve_ok h2
        exact ⟨_, _, h3⟩
      · obtain ⟨out, h3, -⟩ := create_ok h2
        exact ⟨_, _, h3⟩
    obtain ⟨inp, out, hr⟩ := hleaf
    rw [ho, hr, expand]
    cases kind with
    | plain => rcases htens with ⟨t, ht, -⟩ | ⟨-, ht⟩; · cases ht
               · exact ⟨_, by rw [runPrep.eq_def]; rfl, rfl, by rw [ht]; exact hs⟩
    | random => rcases htens with ⟨t, ht, -⟩ | ⟨-, ht⟩; · cases ht
                · exact ⟨_, by rw [runPrep.eq_def]; rfl, rfl, by rw [ht]; exact hs⟩
    | stateful => rcases htens with ⟨t, ht, -⟩ | ⟨-, ht⟩; · cases ht
                  · exact ⟨_, by rw [runPrep.eq_def]; rfl, rfl, by rw [ht]; exact hs⟩
    | prep => rcases htens with ⟨t, ht, -⟩ | ⟨-, ht⟩; · cases ht
              · exact ⟨_, by rw [runPrep.eq_def]; rfl, rfl, by rw [ht]; exact hs⟩
    | temporal => cases allowed <;> cases hinv
    | reuse l => rw [Flat] at hf; exact hf.elim
    | register t =>
      rw [Flat] at hf
      rcases htens with ⟨t', ht', hn, ht⟩ | ⟨hk, -⟩
      · cases ht'
        have hnone : (s.tensors.lookup t).isSome = false := by rw [← hs t hf.1 hf.2, hn]; rfl
        refine ⟨{ s with tensors := (t, s.x) :: s.tensors }, ?_, ?_, by rw [ht]; exact hs.cons t _ _⟩
        · rw [runPrep.eq_def]; dsimp only; rw [applyLeaf, hnone]; rfl
        · show chain (namedStep F m) [Step.register t] s = _
          rw [chain_single, namedStep, applyLeaf, hnone]; rfl
      · exact absurd rfl (hk t)
    | retrieve ts =>
      rw [Flat] at hf
      rcases h2 with ⟨ts', hts, h2⟩ | ⟨hk, -⟩
      · cases hts
        obtain ⟨bs, out', hb, -⟩ := retrieve_ok h2
        rcases htens with ⟨t, ht, -⟩ | ⟨-, ht⟩
        · cases ht
        · obtain ⟨vs, hv⟩ := hs.all ts hf.1 hf.2 bs hb
          refine ⟨{ s with x := F.retrieve id vs, check := false }, ?_, ?_, by rw [ht]; exact hs⟩
          · rw [runPrep.eq_def]; dsimp only; rw [applyLeaf, hv]
          · show chain (namedStep F m) [Step.retrieve id ts] s = _
            rw [chain_single, namedStep, applyLeaf, hv]
      · exact absurd rfl (hk ts)

theorem runPreps_ok {allowed : Bool} (F : Fns α ι) (m : Mode) (ls : List LSpec) (st : Build β) (q : List (Obj β) × Build β)
    (h : netLayers S (prepInvalid allowed) ls st = .ok q) (hf : FlatAll ls) (scope : Scope) (s : Run α ι) (hs : SameNames st.tensors s.tensors) :
    ∃ s', runPreps F m q.1 s = .ok s' ∧ chain (namedStep F m) (expandAll ls scope).1 s = .ok s' ∧ SameNames q.2.tensors s'.tensors := by
  cases ls with
  | nil =>
    rw [netLayers] at h
    injection h with h
    rw [← h]
    exact ⟨s, by rw [runPreps], rfl, hs⟩
  | cons l ls =>
    obtain ⟨o, st1, os, h1, h2, h3⟩ := netLayers_cons h
    rw [FlatAll] at hf
    obtain ⟨s1, g1, g2, g3⟩ := runPrep_ok F m l _ _ h1 hf.1 scope s hs
    obtain ⟨s2, k1, k2, k3⟩ := runPreps_ok F m ls _ (os, q.2) h2 hf.2 ((expand l scope).2 ++ scope) s1 g3
    refine ⟨s2, ?_, ?_, k3⟩
    · rw [h3, runPreps, g1]
      exact k1
    · rw [expandAll, chain_append, g2]
      exact k2

end

mutual

theorem resets_eq {invalid : Kind → Bool} (l : LSpec) (st : Build β) (q : Obj β × Build β) (h : netLayer S invalid l st = .ok q) (hf : Flat l) :
    resets q.1 = prepIds l := by
  cases l with
  | list specs =>
    obtain ⟨os, h1, h2⟩ := netLayer_list h
    rw [Flat] at hf
    rw [h2, prepIds, resets]
    exact resetss_eq specs st (os, q.2) h1 hf
  | block name layers => rw [Flat] at hf; exact hf.elim
  | layer id name kind inner =>
    obtain ⟨r, h1, h2⟩ := netLayer_layer h
    rw [(added_ok h1).2.1, prepIds]
    rcases h2 with ⟨ts, rfl, h2⟩ | ⟨-, h2⟩
    · obtain ⟨bs, out, -, -, -, -, h3, -⟩ := retrieve_ok h2
      rw [h3, resets]
    · obtain ⟨out, h3, -⟩ := create_ok h2
      rw [h3, resets]

theorem resetss_eq {invalid : Kind → Bool} (ls : List LSpec) (st : Build β) (q : List (Obj β) × Build β)
    (h : netLayers S invalid ls st = .ok q) (hf : FlatAll ls) : resetsAll q.1 = prepIdsAll ls := by
  cases ls with
  | nil =>
    rw [netLayers] at h
    injection h with h
    rw [← h, resetsAll, prepIdsAll]
  | cons l ls =>
    obtain ⟨o, st1, os, h1, h2, h3⟩ := netLayers_cons h
    rw [FlatAll] at hf
    rw [h3, resetsAll, prepIdsAll, resets_eq l _ _ h1 hf.1]
    exact congrArg _ (resetss_eq ls _ (os, q.2) h2 hf.2)

end

theorem preprocessor_ok {allowed : Bool} {l : LSpec} {input : β} {reg : Reg β} {r : Network β × Reg β} (h : preprocessor S allowed l input reg = .ok r) :
    ∃ q, netLayer S (prepInvalid allowed) l ⟨reg, input, [("state", input)]⟩ = .ok q ∧ r.1.layers = q.1 := by
  unfold preprocessor at h
  split at h
  · cases h
  · rename_i q hq
    injection h with h
    subst h
    exact ⟨q, hq, rfl⟩

end

/-- Without internals no temporal layer can be applied. -/
theorem noTemporal (F : Fns α ι) (m : Mode) (steps : List Step) (k : Nat × String) (hk : k ∈ temporalSteps steps) : ∀ (s s' : Run α ι),
    chain (namedStep F m) steps s = .ok s' → s.internals = [] → False := by
  induction steps with
  | nil => intro s s' _ _; cases hk
  | cons st steps ih =>
    intro s s' h hi
    rw [chain] at h
    split at h
    · cases h
    · rename_i s1 h1
      have hst : ∀ id name, st ≠ .temporal id name := by
        intro id name e
        subst e
        rw [namedStep, applyLeaf, hi] at h1
        cases hc : s.check with
        | true => rw [hc] at h1; cases h1
        | false => rw [hc] at h1; cases h1
      have hk' : k ∈ temporalSteps steps := by
        cases st with
        | temporal id name => exact absurd rfl (hst id name)
        | _ => exact hk
      refine ih hk' s1 s' h ?_
      cases st with
      | temporal id name => exact absurd rfl (hst id name)
      | plain id => injection h1 with h1; subst h1; exact hi
      | random id => injection h1 with h1; subst h1; exact hi
      | stateful id => injection h1 with h1; subst h1; exact hi
      | register t =>
        rw [namedStep, applyLeaf] at h1
        split at h1
        · cases h1
        · injection h1 with h1; subst h1; exact hi
      | retrieve id ts =>
        rw [namedStep, applyLeaf] at h1
        split at h1
        · cases h1
        · injection h1 with h1; subst h1; exact hi

end Verif.Net
