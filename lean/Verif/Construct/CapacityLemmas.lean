import Verif.Construct.Lemmas
import Verif.Memory.Spec

/-! # Lemmas about capacities -/

namespace Verif.Construct

theorem capacityOf_ok (given : Option Int) (m c : Int) :
    capacityOf given (some m) = .ok c ↔ m ≤ c ∧ (∀ g, given = some g → c = g) ∧ (given = none → c = m) := by
  cases given with
  | none =>
    constructor
    · intro h; cases h; exact ⟨Int.le_refl _, fun g e => (by cases e), fun _ => rfl⟩
    · rintro ⟨_, _, h⟩; rw [h rfl]; rfl
  | some g =>
    unfold capacityOf
    dsimp only
    constructor
    · intro h
      split at h
      · cases h
      · cases h; exact ⟨by omega, fun g e => (by cases e; rfl), fun e => (by cases e)⟩
    · rintro ⟨h1, h2, _⟩
      have := h2 g rfl
      subst this
      rw [if_neg (by omega)]

theorem fitNewest_take {β : Type} (m : Nat) (es : List (List β)) (hm : ∀ e ∈ es, e.length ≤ m) (n budget : Nat) (h : n * m ≤ budget) :
    (Memory.fitNewest budget es).take n = es.take n := by
  induction n generalizing es budget with
  | zero => simp
  | succ k ih =>
    cases es with
    | nil => rfl
    | cons e r =>
      have he := hm e (List.mem_cons_self ..)
      have hk : k * m + m ≤ budget := by rw [← Nat.succ_mul]; exact h
      unfold Memory.fitNewest
      rw [if_pos (by omega), List.take_succ_cons, List.take_succ_cons,
        ih r (fun e' h' => hm e' (List.mem_cons_of_mem _ h')) (budget - e.length) (by omega)]

theorem isStr_iff (v : Family.Val) (s : String) : isStr v s = true ↔ v = .str s := by
  cases v <;> simp [isStr]

theorem exists_max (l : List Int) (h : l ≠ []) : ∃ m ∈ l, ∀ x ∈ l, x ≤ m := by
  induction l with
  | nil => exact (h rfl).elim
  | cons a r ih =>
    by_cases hr : r = []
    · subst hr
      exact ⟨a, List.mem_singleton.mpr rfl, fun x hx => by rw [List.mem_singleton.mp hx]; exact Int.le_refl _⟩
    · obtain ⟨m, hm, hx⟩ := ih hr
      by_cases ha : a ≤ m
      · exact ⟨m, List.mem_cons_of_mem _ hm, fun x hx' => by
          rcases List.mem_cons.mp hx' with e | e
          · subst e; exact ha
          · exact hx x e⟩
      · exact ⟨a, List.mem_cons_self .., fun x hx' => by
          rcases List.mem_cons.mp hx' with e | e
          · subst e; exact Int.le_refl _
          · have := hx x e; omega⟩

end Verif.Construct
