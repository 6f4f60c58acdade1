import Verif.Props.Capacity
import Verif.Props.UpdateConfig

/-!
# Property C109: the reward horizon is accepted as documented and fits together with update and memory

* `horizon`: which horizons are accepted,
* `horizon_limit`: an accepted horizon is at least one and at most the length of episodes,
* `documented_accepted_partial` with the exceptions
* `long_violation`: a horizon above the maximum number of timesteps is rejected,
* `unlimited_parameter_violation`: so is a horizon parameter without upper bound,
* `default_memory`: with limited episodes, every accepted update schedule and horizon is given a memory by default.
-/

namespace Verif.Props.Horizon

open Verif.Construct
open Verif.Family (Val Args find)

/-- A horizon is accepted exactly if it is `"episode"` or a parameter between one and the maximum number of timesteps. -/
theorem horizon (w : World) (max : Option Int) (v : Val) (r : Horizon) : makeHorizon w max v = .ok r ↔ StandsHorizon w max v r := by
  unfold makeHorizon
  by_cases h : isStr v "episode" = true
  · rw [if_pos h]
    have hv := (isStr_iff v _).mp h
    cases r with
    | episode => exact ⟨fun _ => hv, fun _ => rfl⟩
    | steps p => exact ⟨fun e => (by cases e), fun e => (e.1 hv).elim⟩
  · rw [if_neg h, bind_ok]
    have hv : v ≠ .str "episode" := fun e => h ((isStr_iff v _).mpr e)
    cases r with
    | episode => exact ⟨fun ⟨_, _, e⟩ => (by cases e), fun e => (hv e).elim⟩
    | steps p =>
      constructor
      · rintro ⟨q, h1, h2⟩
        cases h2
        exact ⟨hv, (intParam_ok ..).mp h1⟩
      · rintro ⟨_, h1⟩
        exact ⟨p, (intParam_ok ..).mpr h1, rfl⟩

example (w : World) : makeHorizon w (some 10) (.int 10) = .ok (.steps ⟨.int 10, ⟨some 10, some 10⟩⟩) ∧
    makeHorizon w none (.str "episode") = .ok .episode := ⟨rfl, rfl⟩

/-- An accepted number of timesteps is at least one, and at most the maximum number of timesteps of an episode if there is one. -/
theorem horizon_limit (w : World) (max : Option Int) (v : Val) (p : Param Int) (h : makeHorizon w max v = .ok (.steps p)) :
    (∃ lo, p.bounds.lo = some lo ∧ 1 ≤ lo) ∧ ∀ m, max = some m → ∃ hi, p.bounds.hi = some hi ∧ hi ≤ m := by
  obtain ⟨_, _, _, _, h2, h3⟩ := (horizon w max v _).mp h
  exact ⟨h2 1 rfl, h3⟩

example (w : World) : makeHorizon w (some 10) (.int 3) = .ok (.steps ⟨.int 3, ⟨some 3, some 3⟩⟩) := rfl

/-- C109, partial: documented horizons are accepted.  Missing: parameters which may exceed the maximum number of timesteps
(`long_violation`, `unlimited_parameter_violation`). -/
theorem documented_accepted_partial (w : World) (max : Option Int) (v : Val) (h : DocumentedHorizon w v)
    (hm : ∀ m b, max = some m → intBounds w v = some b → ∃ hi, b.hi = some hi ∧ hi ≤ m) : ∃ r, makeHorizon w max v = .ok r := by
  by_cases he : v = .str "episode"
  · exact ⟨.episode, (horizon w max v _).mpr he⟩
  · rcases h with h | ⟨p, h1, h2, h3, h4, _⟩
    · exact (he h).elim
    · exact ⟨.steps p, (horizon w max v _).mpr ⟨he, h1, h2, h3, h4, fun x hx => hm x _ hx h2⟩⟩

example (w : World) : DocumentedHorizon w (.int 3) ∧
    ∀ m b, some (10 : Int) = some m → intBounds w (.int 3) = some b → ∃ hi, b.hi = some hi ∧ hi ≤ m :=
  ⟨.inr ⟨_, UpdateConfig.constant_int w _ _ 3 (fun x e => by cases e; decide) (fun x e => by cases e)⟩,
    fun m b e1 e2 => by cases e1; cases e2; exact ⟨3, rfl, by decide⟩⟩

/-- C109, violated: the documented horizon of `n` timesteps is rejected if episodes are shorter. -/
theorem long_violation (w : World) (n m : Int) (h1 : 1 ≤ n) (h : m < n) :
    DocumentedHorizon w (.int n) ∧ makeHorizon w (some m) (.int n) = .error (.value "value") := by
  refine ⟨.inr ⟨_, UpdateConfig.constant_int w _ _ n (fun x e => by cases e; exact h1) (fun x e => by cases e)⟩, ?_⟩
  have hc : checkConstant (some 1) (some m) n = .error (.value "value") := by
    unfold checkConstant
    have : ¬ n < 1 := by omega
    simp [h, this]
  show (do
    let p ← (do
      checkConstant (some 1) (some m) n
      checkBounds (some 1) (some m) ⟨some n, some n⟩
      .ok (⟨Val.int n, ⟨some n, some n⟩⟩ : Param Int))
    .ok (Horizon.steps p)) = _
  rw [hc]
  rfl

example : (1 : Int) ≤ 20 ∧ (10 : Int) < 20 := by decide

/-- C109, violated: so is every horizon parameter without upper bound if episodes are limited. -/
theorem unlimited_parameter_violation (w : World) (m : Int) (v : Val) (p : Param Int) (h : IsInt w (some 1) none v p)
    (hv : v ≠ .str "episode") (hp : p.bounds.hi = none) : DocumentedHorizon w v ∧ ∀ r, makeHorizon w (some m) v ≠ .ok r := by
  refine ⟨.inr ⟨p, h⟩, fun r hr => ?_⟩
  have hr := (horizon w _ v r).mp hr
  cases r with
  | episode => exact hv hr
  | steps q =>
    obtain ⟨_, _, hb, _, _, h4⟩ := hr
    obtain ⟨hi, e, _⟩ := h4 m rfl
    rw [h.2.1] at hb
    rw [← Option.some.inj hb, hp] at e
    cases e

example : IsInt ⟨fun _ => .ok ⟨some 1, none⟩, fun _ => .error .type⟩ (some 1) none (.other 0) ⟨.other 0, ⟨some 1, none⟩⟩ ∧
    Val.other 0 ≠ .str "episode" :=
  ⟨⟨rfl, rfl, fun l h _ e => (by cases e), fun x e => (by cases e; exact ⟨1, rfl, by decide⟩), fun x e => (by cases e)⟩, nofun⟩

/-- C109: if episodes are limited, then every accepted update with a schedule and every accepted horizon get a memory by default,
which is large enough for a batch, its horizons and one more timestep or episode. -/
theorem default_memory (w : World) (m : Int) (u : Args) (v : Val) (r : Update) (h : Horizon) (past : Int) (buffer : Buffer)
    (hu : makeUpdate w u = .ok r) (hs : r.schedule ≠ none) (hh : makeHorizon w (some m) v = .ok h) :
    ∃ c b k, memoryCapacity r.unit r.batch.bounds h (some m) past buffer none = .ok c ∧ r.batch.bounds.hi = some b ∧
      horizonMax h (some m) = some k ∧ k ≤ m ∧ (r.unit = "timesteps" ∧ b + 1 + past + k ≤ c ∨ r.unit = "episodes" ∧ (b + 1) * m ≤ c) := by
  have hst := (UpdateConfig.schedule w u r).mp hu
  obtain ⟨b, hb⟩ : ∃ b, r.batch.bounds.hi = some b := by
    cases hsc : r.schedule with
    | none => exact (hs hsc).elim
    | some fs =>
      obtain ⟨_, b, _, hb, _⟩ := hst.schedule fs.1 fs.2 hsc
      exact ⟨b, hb⟩
  obtain ⟨k, hk, hkm⟩ : ∃ k, horizonMax h (some m) = some k ∧ k ≤ m := by
    cases h with
    | episode => exact ⟨m, rfl, Int.le_refl _⟩
    | steps p => exact (horizon_limit w _ v p hh).2 m rfl
  rcases hst.units with hu' | hu'
  · obtain ⟨c, hc, hle⟩ := exists_max (timestepNeeds b past k (some m) buffer) (by simp [timestepNeeds])
    refine ⟨c, b, k, ?_, hb, hk, hkm, .inl ⟨hu', hle _ (by simp [timestepNeeds])⟩⟩
    rw [hu']
    exact (Capacity.capacity_timesteps ..).mpr ⟨b, k, hb, hk, hle, nofun, fun _ => hc⟩
  · obtain ⟨c, hc, hle⟩ := exists_max (episodeNeeds b (some m) buffer) (by simp [episodeNeeds])
    refine ⟨c, b, k, ?_, hb, hk, hkm, .inr ⟨hu', hle _ (by simp [episodeNeeds])⟩⟩
    rw [hu']
    exact (Capacity.capacity_episodes_partial ..).mpr ⟨b, hb, hle, nofun, fun _ => hc⟩

example : ∃ r, makeUpdate UpdateConfig.constants [("unit", .str "timesteps"), ("batch_size", .int 8), ("frequency", .float (1 / 3))] = .ok r ∧
    r.schedule ≠ none ∧ ∃ h, makeHorizon UpdateConfig.constants (some 10) (.int 3) = .ok h :=
  ⟨_, UpdateConfig.third _, nofun, _, rfl⟩

end Verif.Props.Horizon
