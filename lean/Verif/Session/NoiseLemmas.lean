import Verif.Session.Noise

/-! # Lemmas about variable noise -/

namespace Verif.Session

variable {K : Type} [Field K] [LinearOrder K] [IsStrictOrderedRing K]

theorem zip_cancel : ∀ (vars noise : List K), noise.length = vars.length →
    List.zipWith (fun v n => id (v - n)) (List.zipWith (fun v n => id (v + n)) vars noise) noise = vars
  | [], noise, h => by simp
  | v :: vars, [], h => by simp at h
  | v :: vars, n :: noise, h => by
    simp only [List.length_cons, Nat.add_right_cancel_iff] at h
    simp only [List.zipWith_cons_cons, id, add_sub_cancel_right]
    have := zip_cancel vars noise h
    simp only [id] at this
    rw [this]

theorem zip_zero : ∀ vars : List K, List.zipWith (fun v n => id (v - n)) vars (vars.map fun _ => 0) = vars
  | [] => rfl
  | v :: vars => by
    have := zip_zero vars
    simp only [id] at this
    simp only [List.map_cons, List.zipWith_cons_cons, id, sub_zero, this]

end Verif.Session
