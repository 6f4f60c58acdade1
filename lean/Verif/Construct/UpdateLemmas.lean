import Verif.Construct.Lemmas

/-! # Lemmas about the update configuration -/

namespace Verif.Construct

open Verif.Family (Val Args find)

theorem isNever_iff (v : Option Val) : isNever v = true ↔ v = some (.str "never") := by
  unfold isNever
  split
  · simp
  · rename_i h
    constructor
    · intro e; cases e
    · intro e; exact absurd e (h "never")

/-- The rounded relative frequency. -/
theorem relative_iff (q : Rat) (n k : Int) :
    k = max 1 (q * (n : Rat)).floor ↔ 1 ≤ k ∧ (k = 1 ∨ (k : Rat) ≤ q * n) ∧ q * n < ((k + 1 : Int) : Rat) := by
  rw [← Rat.le_floor_iff, ← Rat.floor_lt_iff]
  omega

theorem frequencyOf_ok (freq : Option Val) (b v : Val) (hn : freq ≠ some (.str "never")) :
    frequencyOf freq b = .ok v ↔ Frequency b freq v := by
  have given : ∀ x : Val, (∀ q, x ≠ .float q) → x ≠ .none → x ≠ .str "never" → frequencyOf (some x) b = .ok x →
      (frequencyOf (some x) b = .ok v ↔ Frequency b (some x) v) := by
    intro x h1 h2 h3 h
    rw [h]
    constructor
    · intro e; cases e; exact .given _ h1 h2 h3
    · intro e
      cases e with
      | none => exact absurd rfl h2
      | relative q => exact absurd rfl (h1 q)
      | given => rfl
  cases freq with
  | none =>
    constructor
    · intro h; cases h; exact .absent
    · intro h; cases h; rfl
  | some x =>
    cases x with
    | none =>
      constructor
      · intro h; cases h; exact .none
      · intro h
        cases h with
        | none => rfl
        | given _ _ h => exact absurd rfl h
    | float q =>
      unfold frequencyOf
      dsimp only
      constructor
      · intro h
        split at h
        · cases h
        · rename_i hq
          rw [not_or, Rat.not_le, Rat.not_lt] at hq
          split at h
          · cases h
            obtain ⟨h1, h2, h3⟩ := (relative_iff q _ _).mp rfl
            exact .relative q _ _ hq.1 hq.2 rfl h1 h2 h3
          · cases h
      · intro h
        cases h with
        | relative _ n k h1 h2 hb h3 h4 h5 =>
          subst hb
          rw [if_neg (by rw [not_or, Rat.not_le, Rat.not_lt]; exact ⟨h1, h2⟩)]
          dsimp only
          rw [(relative_iff q n k).mpr ⟨h3, h4, h5⟩]
        | given _ h => exact absurd rfl (h q)
    | bool y => exact given _ (fun _ e => by cases e) (fun e => by cases e) (fun e => by cases e) rfl
    | int y => exact given _ (fun _ e => by cases e) (fun e => by cases e) (fun e => by cases e) rfl
    | str y => exact given _ (fun _ e => by cases e) (fun e => by cases e) (fun e => hn (by rw [e])) rfl
    | dict y => exact given _ (fun _ e => by cases e) (fun e => by cases e) (fun e => by cases e) rfl
    | other y => exact given _ (fun _ e => by cases e) (fun e => by cases e) (fun e => by cases e) rfl

theorem orDefault_iff (v x : Val) (o : Option Val) (hv : v ≠ .none) :
    orDefault v o = x ↔ (o = some x ∧ x ≠ .none ∨ (o = none ∨ o = some .none) ∧ x = v) := by
  cases o with
  | none => simp [orDefault, eq_comm]
  | some y =>
    cases y with
    | none =>
      constructor
      · intro h; exact .inr ⟨.inr rfl, h.symm⟩
      · rintro (⟨h, h'⟩ | ⟨_, h⟩)
        · cases h; exact absurd rfl h'
        · exact h.symm
    | bool z =>
      constructor
      · intro h; cases h; exact .inl ⟨rfl, nofun⟩
      · rintro (⟨h, _⟩ | ⟨h | h, _⟩) <;> cases h; rfl
    | int z =>
      constructor
      · intro h; cases h; exact .inl ⟨rfl, nofun⟩
      · rintro (⟨h, _⟩ | ⟨h | h, _⟩) <;> cases h; rfl
    | float z =>
      constructor
      · intro h; cases h; exact .inl ⟨rfl, nofun⟩
      · rintro (⟨h, _⟩ | ⟨h | h, _⟩) <;> cases h; rfl
    | str z =>
      constructor
      · intro h; cases h; exact .inl ⟨rfl, nofun⟩
      · rintro (⟨h, _⟩ | ⟨h | h, _⟩) <;> cases h; rfl
    | dict z =>
      constructor
      · intro h; cases h; exact .inl ⟨rfl, nofun⟩
      · rintro (⟨h, _⟩ | ⟨h | h, _⟩) <;> cases h; rfl
    | other z =>
      constructor
      · intro h; cases h; exact .inl ⟨rfl, nofun⟩
      · rintro (⟨h, _⟩ | ⟨h | h, _⟩) <;> cases h; rfl

theorem keys_iff (u : Args) : (u.all (fun x => updateKeys.contains x.1)) = true ↔
    ∀ x ∈ u, x.1 = "unit" ∨ x.1 = "batch_size" ∨ x.1 = "frequency" ∨ x.1 = "start" := by
  rw [List.all_eq_true]
  refine forall_congr' (fun x => forall_congr' (fun _ => ?_))
  simp only [updateKeys, List.contains_eq_mem, decide_eq_true_eq, List.mem_cons, List.not_mem_nil, or_false]
  constructor
  · rintro (h | h | h | h) <;> simp [h]
  · rintro (h | h | h | h) <;> simp [h]

/-- The schedule part of the configuration. -/
def scheduleOf (w : World) (u : Args) (unit : String) (b : Val) (batch : Param Int) : Except Err Update := do
  let f ← frequencyOf (find "frequency" u) b
  let h ← number batch.bounds.hi
  let frequency ← intParam w (some 1) (some (max 2 h)) f
  let start ← intParam w (some 0) none (orDefault (.int 0) (find "start" u))
  .ok ⟨unit, batch, some (frequency, start)⟩

theorem makeUpdate_batch (w : World) (u : Args) (unit : String) (b : Val) (hk : u.all (fun x => updateKeys.contains x.1) = true)
    (hu : find "unit" u = some (.str unit)) (hs : unit = "timesteps" ∨ unit = "episodes") (hb : find "batch_size" u = some b) :
    makeUpdate w u = (do
      let batch ← intParam w (some 1) none b
      if isNever (find "frequency" u) then .ok ⟨unit, batch, none⟩ else scheduleOf w u unit b batch) := by
  unfold makeUpdate
  rw [hk, hu, hb]
  dsimp only
  rw [if_neg (by decide), if_neg (by simp only [Bool.not_eq_true', decide_eq_false_iff_not, Decidable.not_not]; exact hs)]
  rfl

theorem scheduleOf_ok (w : World) (u : Args) (unit : String) (b : Val) (batch : Param Int) (r : Update)
    (hn : find "frequency" u ≠ some (.str "never")) :
    scheduleOf w u unit b batch = .ok r ↔ r.unit = unit ∧ r.batch = batch ∧ ∃ f s, r.schedule = some (f, s) ∧
      ∃ v h, Frequency b (find "frequency" u) v ∧ batch.bounds.hi = some h ∧ IsInt w (some 1) (some (max 2 h)) v f ∧
      ∃ v', IsInt w (some 0) none v' s ∧
      (find "start" u = some v' ∧ v' ≠ .none ∨ (find "start" u = none ∨ find "start" u = some .none) ∧ v' = .int 0) := by
  unfold scheduleOf
  rw [bind_ok]
  constructor
  · rintro ⟨v, hv, h⟩
    rw [bind_ok] at h
    obtain ⟨x, hl, h⟩ := h
    rw [bind_ok] at h
    obtain ⟨f, hf, h⟩ := h
    rw [bind_ok] at h
    obtain ⟨s, hs, h⟩ := h
    cases h
    refine ⟨rfl, rfl, f, s, rfl, v, ?_⟩
    cases hh : batch.bounds.hi with
    | none => rw [hh] at hl; cases hl
    | some y =>
      rw [hh] at hl
      cases hl
      exact ⟨x, (frequencyOf_ok _ _ _ hn).mp hv, rfl, (intParam_ok ..).mp hf, _, (intParam_ok ..).mp hs,
        (orDefault_iff _ _ _ (fun e => by cases e)).mp rfl⟩
  · rintro ⟨rfl, rfl, f, s, hr, v, h, hv, hh, hf, v', hs, hv'⟩
    refine ⟨v, (frequencyOf_ok _ _ _ hn).mpr hv, ?_⟩
    rw [hh]
    rw [bind_ok]
    refine ⟨h, rfl, ?_⟩
    rw [bind_ok]
    refine ⟨f, (intParam_ok ..).mpr hf, ?_⟩
    rw [bind_ok]
    rw [(orDefault_iff _ _ _ (fun e => by cases e)).mpr hv']
    refine ⟨s, (intParam_ok ..).mpr hs, ?_⟩
    obtain ⟨a, b, c⟩ := r
    cases hr
    rfl

theorem makeUpdate_ok (w : World) (u : Args) (r : Update) : makeUpdate w u = .ok r ↔ Stands w u r := by
  by_cases hk : u.all (fun x => updateKeys.contains x.1) = true
  rotate_left
  · constructor
    · intro h
      unfold makeUpdate at h
      rw [if_pos (by simpa using hk)] at h
      cases h
    · intro h; exact absurd ((keys_iff u).mpr h.keys) hk
  cases hu : find "unit" u with
  | none =>
    constructor
    · intro h; unfold makeUpdate at h; rw [hk, hu] at h; cases h
    · intro h; have := h.unit; rw [hu] at this; cases this
  | some unit =>
    by_cases hs : ∃ s, unit = .str s ∧ (s = "timesteps" ∨ s = "episodes")
    rotate_left
    · constructor
      · intro h
        unfold makeUpdate at h
        rw [hk, hu] at h
        dsimp only at h
        rw [if_neg (by decide)] at h
        cases unit with
        | str s =>
          dsimp only at h
          rw [if_pos (by simpa using fun e => hs ⟨s, rfl, e⟩)] at h
          cases h
        | none => cases h
        | bool b => cases h
        | int b => cases h
        | float b => cases h
        | dict b => cases h
        | other b => cases h
      · intro h
        have := h.unit
        rw [hu] at this
        cases this
        exact absurd ⟨_, rfl, h.units⟩ hs
    obtain ⟨s, rfl, hs⟩ := hs
    cases hb : find "batch_size" u with
    | none =>
      constructor
      · intro h
        unfold makeUpdate at h
        rw [hk, hu, hb] at h
        dsimp only at h
        rw [if_neg (by decide), if_neg (by simp only [Bool.not_eq_true', decide_eq_false_iff_not, Decidable.not_not]; exact hs)] at h
        cases h
      · intro h
        obtain ⟨b, h1, _⟩ := h.batch
        rw [hb] at h1
        cases h1
    | some b =>
      rw [makeUpdate_batch w u s b hk hu hs hb, bind_ok]
      constructor
      · rintro ⟨batch, h1, h2⟩
        have h1 := (intParam_ok ..).mp h1
        by_cases hn : find "frequency" u = some (.str "never")
        · rw [if_pos ((isNever_iff _).mpr hn)] at h2
          cases h2
          exact { keys := (keys_iff u).mp hk, unit := hu, units := hs, batch := ⟨b, hb, h1⟩, never := by simp [hn],
                  schedule := fun f s e => by cases e }
        · rw [if_neg (by rw [isNever_iff]; exact hn)] at h2
          obtain ⟨e1, e2, f, st, e3, hh⟩ := (scheduleOf_ok w u s b batch r hn).mp h2
          subst e1 e2
          refine { keys := (keys_iff u).mp hk, unit := hu, units := hs, batch := ⟨b, hb, h1⟩, never := by simp [hn, e3],
                   schedule := fun f' s' e => ?_ }
          rw [e3] at e
          cases e
          rw [h1.1]
          exact hh
      · intro h
        have hun := h.unit
        rw [hu] at hun
        cases hun
        obtain ⟨b', h1, h2⟩ := h.batch
        rw [hb] at h1
        cases h1
        refine ⟨r.batch, (intParam_ok ..).mpr h2, ?_⟩
        by_cases hn : find "frequency" u = some (.str "never")
        · rw [if_pos ((isNever_iff _).mpr hn)]
          obtain ⟨a, b, c⟩ := r
          have := h.never.mpr hn
          cases this
          rfl
        · rw [if_neg (by rw [isNever_iff]; exact hn), scheduleOf_ok w u _ b r.batch r hn]
          cases hc : r.schedule with
          | none => exact absurd (h.never.mp hc) hn
          | some fs =>
            obtain ⟨f, st⟩ := fs
            have hh := h.schedule f st hc
            rw [h2.1] at hh
            exact ⟨rfl, rfl, f, st, rfl, hh⟩

end Verif.Construct
