import Verif.Net.Apply

/-! # Rows of the tensors of a network -/

namespace Verif.Net

/-- All tensors still have the rows of the past horizon. -/
def Fresh (e : Exec Rows Unit) : Prop := e.x = .all ∧ e.check = false ∧ ∀ t v, e.tensors.lookup t = some v → v = .all

theorem fresh_step (m : Mode) (st : Step) (hst : ∀ id name, st ≠ .temporal id name) (e e' : Exec Rows Unit)
    (h : execStep rowFns m st e = .ok e') (hf : Fresh e) : Fresh e' := by
  obtain ⟨h1, h2, h3⟩ := hf
  cases st with
  | plain id => injection h with h; subst h; exact ⟨h1, h2, h3⟩
  | random id => injection h with h; subst h; exact ⟨h1, h2, h3⟩
  | stateful id => injection h with h; subst h; exact ⟨h1, h2, h3⟩
  | temporal id name => exact absurd rfl (hst id name)
  | register t =>
    rw [execStep] at h
    split at h
    · cases h
    · injection h with h
      subst h
      refine ⟨h1, h2, ?_⟩
      intro k v hv
      change ((t, e.x) :: e.tensors).lookup k = some v at hv
      by_cases hk : k = t
      · subst hk
        rw [lookup_cons_self] at hv
        injection hv with hv
        rw [← hv, h1]
      · rw [lookup_cons_ne _ _ hk] at hv
        exact h3 k v hv
  | retrieve id ts =>
    rw [execStep] at h
    split at h
    · cases h
    · rename_i vs hv
      injection h with h
      subst h
      refine ⟨?_, rfl, h3⟩
      have hall : ∀ (k : Nat) v, vs[k]? = some v → v = .all := by
        intro k v hk
        obtain ⟨t, -, ht⟩ := lookupAll_get hv k v hk
        exact h3 t v ht
      cases vs with
      | nil => rfl
      | cons v vs =>
        have hv0 := hall 0 v rfl
        show (if vs.all (· == v) then v else Rows.bad) = .all
        rw [hv0, if_pos]
        rw [List.all_eq_true]
        intro x hx
        obtain ⟨k, hk⟩ := List.mem_iff_getElem?.mp hx
        have := hall (k + 1) x (by rw [List.getElem?_cons_succ]; exact hk)
        rw [this]
        rfl

theorem one_step (m : Mode) (st : Step) (hst : ∀ id ts, st ≠ .retrieve id ts) (e e' : Exec Rows Unit) (h : execStep rowFns m st e = .ok e')
    (hx : e.x = .one ∧ e.check = true) : e'.x = .one ∧ e'.check = true := by
  cases st with
  | plain id => injection h with h; subst h; exact hx
  | random id => injection h with h; subst h; exact hx
  | stateful id => injection h with h; subst h; exact hx
  | temporal id name => rw [execStep, if_pos hx.2] at h; cases h
  | register t =>
    rw [execStep] at h
    split at h
    · cases h
    · injection h with h; subst h; exact hx
  | retrieve id ts => exact absurd rfl (hst id ts)

theorem exec_cons {α ι : Type} {F : Fns α ι} {m : Mode} {st : Step} {steps : List Step} {e e' : Exec α ι} (h : exec F m (st :: steps) e = .ok e') :
    ∃ e1, execStep F m st e = .ok e1 ∧ exec F m steps e1 = .ok e' := by
  rw [exec, chain] at h
  split at h
  · cases h
  · rename_i e1 h1
    exact ⟨e1, h1, h⟩

theorem one_steps (m : Mode) (steps : List Step) : (steps.all fun st => match st with
    | .retrieve _ _ => false
    | _ => true) = true → ∀ e e', exec rowFns m steps e = .ok e' → e.x = .one ∧ e.check = true → e'.x = .one := by
  induction steps with
  | nil => intro _ e e' h hx; injection h with h; subst h; exact hx.1
  | cons st steps ih =>
    intro ha e e' h hx
    rw [List.all_cons, Bool.and_eq_true] at ha
    obtain ⟨e1, h1, h2⟩ := exec_cons h
    refine ih ha.2 e1 e' h2 (one_step m st ?_ e e1 h1 hx)
    intro id ts hst
    subst hst
    exact absurd ha.1 Bool.false_ne_true

theorem rows_steps (m : Mode) (steps : List Step) : noRetrieveAfter steps = true → ∀ e e', exec rowFns m steps e = .ok e' →
    Fresh e → e'.x = if temporalSteps steps = [] then .all else .one := by
  induction steps with
  | nil => intro _ e e' h hf; injection h with h; subst h; exact hf.1
  | cons st steps ih =>
    intro hn e e' h hf
    obtain ⟨e1, h1, h2⟩ := exec_cons h
    by_cases hst : ∃ id name, st = .temporal id name
    · obtain ⟨id, name, rfl⟩ := hst
      rw [noRetrieveAfter] at hn
      have hc : e.check = false := hf.2.1
      rw [execStep, hc] at h1
      injection h1 with h1
      subst h1
      rw [one_steps m steps hn _ e' h2 ⟨by show (if e.x = .all then Rows.one else .bad) = .one; rw [hf.1]; rfl, rfl⟩]
      rfl
    · have hst' : ∀ id name, st ≠ .temporal id name := fun id name h => hst ⟨id, name, h⟩
      have hn' : noRetrieveAfter steps = true := by
        cases st with
        | temporal id name => exact absurd rfl (hst' id name)
        | _ => exact hn
      have ht : temporalSteps (st :: steps) = temporalSteps steps := by
        cases st with
        | temporal id name => exact absurd rfl (hst' id name)
        | _ => rfl
      rw [ht]
      exact ih hn' e1 e' h2 (fresh_step m st hst' e e1 h1 hf)

end Verif.Net
