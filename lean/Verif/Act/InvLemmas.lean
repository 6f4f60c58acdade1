import Verif.Act.CallLemmas

/-!
# `Agent.act`: what an accepted call implies
-/

namespace Verif.Act

open Verif.Feed

theorem act_inv {spec : Spec} {net : Net} {flags flags' : List Bool} {a : Args} {r : Result} (h : act spec net flags a = (flags', .ok r)) :
    ∃ q, before spec flags a = .ok q ∧ after spec net flags.length a q = .ok r := by
  unfold act at h
  cases hb : before spec flags a with
  | error e => rw [hb] at h; exact absurd (Prod.mk.inj h).2 nofun
  | ok q =>
    rw [hb] at h
    exact ⟨q, rfl, (Prod.mk.inj h).2⟩

theorem parallelTensor_inv {n : Nat} {par : Par} {l : List Int} (h : parallelTensor n par = .ok l) : ∀ p ∈ l, 0 ≤ p ∧ p < n := by
  cases par with
  | nested l' => exact absurd h nofun
  | flat l' =>
    unfold parallelTensor at h
    dsimp only at h
    split at h
    · rename_i hall
      rw [← Except.ok.inj h]
      intro p hp
      have := List.all_eq_true.1 hall p hp
      rw [Bool.and_eq_true] at this
      exact ⟨of_decide_eq_true this.1, of_decide_eq_true this.2⟩
    · exact absurd h nofun

theorem tensors_inv {spec : Spec} {n : Nat} {a : Args} {q : Ready} {call : Call} (h : tensors spec n a q = .ok call) :
    Conforms spec.states call.states ∧ (a.independent = false → ∀ p ∈ call.parallel, 0 ≤ p ∧ p < n) := by
  unfold tensors at h
  obtain ⟨st, _, h⟩ := bind_eq_ok h
  obtain ⟨states, hst, h⟩ := bind_eq_ok h
  obtain ⟨internals, _, h⟩ := bind_eq_ok h
  obtain ⟨masks, _, h⟩ := bind_eq_ok h
  by_cases hi : a.independent = true
  · rw [if_pos hi] at h
    rw [← Except.ok.inj h]
    exact ⟨toTensors_conform hst, fun hf => absurd (hi.symm.trans hf) nofun⟩
  · rw [if_neg hi] at h
    obtain ⟨par, hpar, h⟩ := bind_eq_ok h
    rw [← Except.ok.inj h]
    exact ⟨toTensors_conform hst, fun _ => parallelTensor_inv hpar⟩

theorem toTensors_found {ents : List (Key × Ent)} {b : Bool} {f g : Flat} (h : toTensors ents b f = .ok g) :
    ∀ e ∈ ents, ∃ x, valueOf e.1 f = some x ∧ x.shape.tail = e.2.shape ∧ ∀ v ∈ x.data, e.2.valid v = true := by
  intro e he
  unfold toTensors at h
  obtain ⟨_, _, h⟩ := bind_eq_ok h
  obtain ⟨y, hy⟩ := mapM_inv h e he
  obtain ⟨x, hx, hy⟩ := bind_eq_ok hy
  obtain ⟨z, hz, _⟩ := bind_eq_ok hy
  rw [lookup_eq] at hx
  cases hv : valueOf e.1 f with
  | none => rw [hv] at hx; exact absurd hx nofun
  | some x' =>
    rw [hv] at hx
    have : x' = x := Except.ok.inj hx
    subst this
    refine ⟨x', rfl, ?_⟩
    unfold toTensor at hz
    split at hz
    · rename_i hs
      split at hz
      · rename_i hall
        exact ⟨hs, List.all_eq_true.1 hall⟩
      · exact absurd hz nofun
    · exact absurd hz nofun

theorem after_inv {spec : Spec} {net : Net} {n : Nat} {a : Args} {q : Ready} {r : Result} (h : after spec net n a q = .ok r) :
    Conforms spec.states r.call.states ∧
      (∀ e ∈ actionSpec spec, ∃ x, valueOf e.1 (net r.call).1 = some x ∧ x.shape.tail = e.2.shape ∧ ∀ v ∈ x.data, e.2.valid v = true) ∧
      (a.independent = false → ∀ p ∈ r.call.parallel, 0 ≤ p ∧ p < n) := by
  unfold after at h
  obtain ⟨call, hcall, h⟩ := bind_eq_ok h
  obtain ⟨out, hout, h⟩ := bind_eq_ok h
  have hr : r.call = call := by
    unfold returned at h
    obtain ⟨acts, _, h⟩ := bind_eq_ok h
    split at h
    · obtain ⟨ints, _, h⟩ := bind_eq_ok h
      rw [← Except.ok.inj h]
    · rw [← Except.ok.inj h]
  obtain ⟨h1, h2⟩ := tensors_inv hcall
  unfold outputs at hout
  obtain ⟨acts, hacts, _⟩ := bind_eq_ok hout
  rw [hr]
  exact ⟨h1, toTensors_found hacts, h2⟩

end Verif.Act
