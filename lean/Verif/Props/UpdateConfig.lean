import Verif.Construct.UpdateLemmas

/-!
# Property C107: the update configuration is accepted as documented and stands for the configured schedule

* `schedule`: which configurations are accepted, and the schedule they stand for,
* `frequency_bounds`, `default_frequency`, `relative_frequency`, `first_update`,
* `documented_accepted_partial` with the exceptions
* `never_violation`: updates cannot be switched off,
* `large_frequency_violation`: frequencies above the batch size are rejected,
* `relative_violation`: a relative frequency requires a constant batch size,
* `unbounded_violation`: a batch size without upper bound is not possible,
* `start_violation`: a start below the batch size is accepted.
-/

namespace Verif.Props.UpdateConfig

open Verif.Construct
open Verif.Family (Val Args find)

/-- A configuration is accepted exactly if it stands for a schedule, and this is the resulting one. -/
theorem schedule (w : World) (u : Args) (r : Update) : makeUpdate w u = .ok r ↔ Stands w u r := makeUpdate_ok w u r

/-- No parameters besides constants. -/
def constants : World := ⟨fun _ => .error .type, fun _ => .error .type⟩

theorem constant_int (w : World) (lo hi : Option Int) (n : Int) (h1 : ∀ x, lo = some x → x ≤ n) (h2 : ∀ x, hi = some x → n ≤ x) :
    IsInt w lo hi (.int n) ⟨.int n, ⟨some n, some n⟩⟩ :=
  ⟨rfl, rfl, fun l h e1 e2 => by cases e1; cases e2; exact Int.le_refl _, fun x e => ⟨n, rfl, h1 x e⟩, fun x e => ⟨n, rfl, h2 x e⟩⟩

theorem third (w : World) : makeUpdate w [("unit", .str "timesteps"), ("batch_size", .int 8), ("frequency", .float (1 / 3))] =
    .ok ⟨"timesteps", ⟨.int 8, ⟨some 8, some 8⟩⟩, some (⟨.int 2, ⟨some 2, some 2⟩⟩, ⟨.int 0, ⟨some 0, some 0⟩⟩)⟩ := by
  refine (schedule w _ _).mpr
    { keys := by decide, unit := rfl, units := .inl rfl,
      batch := ⟨_, rfl, constant_int w _ _ 8 (fun x e => by cases e; decide) (fun x e => by cases e)⟩,
      never := ⟨fun e => (by cases e), fun e => (by cases e)⟩, schedule := ?_ }
  intro f s e
  cases e
  exact ⟨.int 2, 8, .relative _ 8 2 (by decide +kernel) (by decide +kernel) rfl (by decide) (.inr (by decide +kernel)) (by decide +kernel),
    rfl, constant_int w _ _ 2 (fun x e => by cases e; decide) (fun x e => by cases e; decide), .int 0,
    constant_int w _ _ 0 (fun x e => by cases e; decide) (fun x e => by cases e), .inr ⟨.inl rfl, rfl⟩⟩

example : ∃ r, makeUpdate constants [("unit", .str "timesteps"), ("batch_size", .int 8), ("frequency", .float (1 / 3))] = .ok r :=
  ⟨_, third constants⟩

/-- The frequency is at least one and at most the batch size, or two; the start is not negative. -/
theorem frequency_bounds (w : World) (u : Args) (r : Update) (f s : Param Int) (h : makeUpdate w u = .ok r)
    (hs : r.schedule = some (f, s)) :
    ∃ b lo hi first, r.batch.bounds.hi = some b ∧ f.bounds.lo = some lo ∧ f.bounds.hi = some hi ∧ s.bounds.lo = some first ∧
      1 ≤ lo ∧ lo ≤ hi ∧ hi ≤ max 2 b ∧ 0 ≤ first := by
  have h := (makeUpdate_ok w u r).mp h
  obtain ⟨v, b, _, hb, hf, v', hv', _⟩ := h.schedule f s hs
  obtain ⟨_, _, hw1, hw2, hw3⟩ := hf
  obtain ⟨lo, h1, h2⟩ := hw2 1 rfl
  obtain ⟨hi, h3, h4⟩ := hw3 _ rfl
  obtain ⟨_, _, _, hw4, _⟩ := hv'
  obtain ⟨first, h5, h6⟩ := hw4 0 rfl
  exact ⟨b, lo, hi, first, hb, h1, h3, h5, h2, hw1 _ _ h1 h3, h4, h6⟩

/-- Without a frequency, updates happen with the batch size. -/
theorem default_frequency (w : World) (u : Args) (r : Update) (f s : Param Int) (h : makeUpdate w u = .ok r)
    (hf : find "frequency" u = none ∨ find "frequency" u = some .none) (hs : r.schedule = some (f, s)) : f = r.batch := by
  have h := (makeUpdate_ok w u r).mp h
  obtain ⟨v, b, hv, hb, hf', _⟩ := h.schedule f s hs
  have hvb : v = r.batch.spec := by
    rcases hf with e | e
    · rw [e] at hv; cases hv; rfl
    · rw [e] at hv
      cases hv with
      | none => rfl
      | given _ _ h => exact absurd rfl h
  obtain ⟨b', _, hb'⟩ := h.batch
  obtain ⟨h1, h2, _⟩ := hf'
  obtain ⟨g1, g2, _⟩ := hb'
  rw [hvb, g1] at h1
  rw [hvb, g1, g2] at h2
  cases f; cases hr : r.batch
  rw [hr] at g1 h2
  cases h2
  simp_all

/-- A relative frequency is rounded down, but at least one. -/
theorem relative_frequency (w : World) (u : Args) (r : Update) (f s : Param Int) (q : Rat) (n : Int) (h : makeUpdate w u = .ok r)
    (hb : find "batch_size" u = some (.int n)) (hf : find "frequency" u = some (.float q)) (hs : r.schedule = some (f, s)) :
    ∃ k : Int, f.bounds = ⟨some k, some k⟩ ∧ 1 ≤ k ∧ k ≤ n ∧ (k = 1 ∨ (k : Rat) ≤ q * n) ∧ q * n < ((k + 1 : Int) : Rat) := by
  have h := (makeUpdate_ok w u r).mp h
  obtain ⟨v, b, hv, hb', hf', _⟩ := h.schedule f s hs
  obtain ⟨b', e, hbb⟩ := h.batch
  rw [hb] at e
  cases e
  rw [hf] at hv
  cases hv with
  | relative _ m k h1 h2 h3 h4 h5 h6 =>
    rw [hbb.1] at h3
    cases h3
    obtain ⟨_, h7, _⟩ := hf'
    refine ⟨k, (Option.some.inj h7).symm, h4, ?_, h5, h6⟩
    have hn1 : 1 ≤ n := by
      obtain ⟨l, e1, e2⟩ := hbb.2.2.2.1 1 rfl
      have := hbb.2.1
      rw [show intBounds w (.int n) = some ⟨some n, some n⟩ from rfl] at this
      simp only [Option.some.injEq] at this
      rw [← this] at e1
      cases e1
      exact e2
    rcases h5 with h5 | h5
    · omega
    · have : (k : Rat) ≤ (n : Int) := by
        refine Rat.le_trans h5 ?_
        have := Rat.mul_le_mul_of_nonneg_right h2 (c := (n : Rat)) (by exact_mod_cast (by omega : (0 : Int) ≤ n))
        rwa [Rat.one_mul] at this
      exact_mod_cast this
  | given _ h => exact absurd rfl (h q)

example : ∃ r f s, makeUpdate constants [("unit", .str "timesteps"), ("batch_size", .int 8), ("frequency", .float (1 / 3))] = .ok r ∧
    r.schedule = some (f, s) := ⟨_, _, _, third constants, rfl⟩

/-- The initial value of the last update, so that waiting starts at time zero. -/
theorem first_update (w : World) (u : Args) (r : Update) (h : makeUpdate w u = .ok r) :
    (∀ x, initialLastUpdate r = .ok x → ∃ f s hi, r.schedule = some (f, s) ∧ f.bounds.hi = some hi ∧ x = -hi ∧ 1 ≤ hi) ∧
    (∀ f s, r.schedule = some (f, s) → ∃ x, initialLastUpdate r = .ok x) := by
  constructor
  · intro x hx
    cases hs : r.schedule with
    | none => unfold initialLastUpdate at hx; rw [hs] at hx; cases hx
    | some fs =>
      obtain ⟨f, s⟩ := fs
      obtain ⟨b, lo, hi, first, _, _, h3, _, h5, h6, _⟩ := frequency_bounds w u r f s h hs
      unfold initialLastUpdate at hx
      rw [hs] at hx
      dsimp only at hx
      rw [h3] at hx
      cases hx
      exact ⟨f, s, hi, rfl, h3, rfl, by omega⟩
  · intro f s hs
    obtain ⟨b, lo, hi, first, _, _, h3, _⟩ := frequency_bounds w u r f s h hs
    refine ⟨-hi, ?_⟩
    unfold initialLastUpdate
    rw [hs]
    dsimp only
    rw [h3]
    rfl

/-- C107, partial: documented configurations are accepted.  Missing: frequency `"never"`, which is accepted but fails later
(`never_violation`), batch sizes without upper bound, frequencies above batch size and two, relative frequencies for a batch
size which is not constant. -/
theorem documented_accepted_partial (w : World) (u : Args) (h : Documented w u)
    (hn : find "frequency" u ≠ some (.str "never"))
    (hb : ∀ b p, find "batch_size" u = some b → IsInt w (some 1) none b p → ∃ x, p.bounds.hi = some x)
    (hf : ∀ v f b p x, find "frequency" u = some v → IsInt w (some 1) none v f → find "batch_size" u = some b →
      IsInt w (some 1) none b p → p.bounds.hi = some x → ∃ y, f.bounds.hi = some y ∧ y ≤ max 2 x)
    (hr : ∀ q, find "frequency" u = some (.float q) → ∃ n, find "batch_size" u = some (.int n)) :
    ∃ r x, makeUpdate w u = .ok r ∧ initialLastUpdate r = .ok x := by
  obtain ⟨b, p, hb1, hb2⟩ := h.batch
  obtain ⟨x, hx⟩ := hb b p hb1 hb2
  have hb1le : 1 ≤ x := by
    obtain ⟨l, e1, e2⟩ := hb2.2.2.2.1 1 rfl
    have := hb2.2.2.1 l x e1 hx
    omega
  have hp : p.spec = b := hb2.1
  have hfreq : ∃ v f, Frequency p.spec (find "frequency" u) v ∧ IsInt w (some 1) (some (max 2 x)) v f := by
    have own : IsInt w (some 1) (some (max 2 x)) p.spec p := by
      rw [hp]
      refine ⟨hp, hb2.2.1, hb2.2.2.1, hb2.2.2.2.1, ?_⟩
      intro y e
      cases e
      exact ⟨x, hx, by omega⟩
    rcases h.frequency with e | e
    · exact absurd e hn
    · generalize hfq : find "frequency" u = fq at e
      cases e with
      | absent => exact ⟨p.spec, p, .absent, own⟩
      | none => exact ⟨p.spec, p, .none, own⟩
      | relative q h1 h2 =>
        obtain ⟨n, hn'⟩ := hr q hfq
        rw [hb1] at hn'
        cases hn'
        obtain ⟨h3, h4, h5⟩ := (relative_iff q n _).mp rfl
        refine ⟨_, _, .relative q n _ h1 h2 hp h3 h4 h5, constant_int w _ _ _ (fun y e => by cases e; exact h3) ?_⟩
        intro y e
        cases e
        have hxn : x = n := by
          have := hb2.2.1
          rw [show intBounds w (.int n) = some ⟨some n, some n⟩ from rfl] at this
          simp only [Option.some.injEq] at this
          rw [← this] at hx
          cases hx; rfl
        subst hxn
        have : (q * (x : Rat)).floor ≤ x := by
          have h0 : q * (x : Rat) ≤ (x : Rat) := by
            have := Rat.mul_le_mul_of_nonneg_right h2 (c := (x : Rat)) (by exact_mod_cast (by omega : (0 : Int) ≤ x))
            rwa [Rat.one_mul] at this
          have := Rat.floor_monotone h0
          rwa [Rat.floor_intCast] at this
        omega
      | parameter v f h1 h2 =>
        obtain ⟨y, hy1, hy2⟩ := hf v f b p x hfq h1 hb1 hb2 hx
        refine ⟨v, f, .given v ?_ ?_ h2, h1.1, h1.2.1, h1.2.2.1, h1.2.2.2.1, fun z e => by cases e; exact ⟨y, hy1, hy2⟩⟩
        · intro q e; subst e; have := h1.2.1; cases this
        · intro e; subst e; have := h1.2.1; cases this
  obtain ⟨v, f, hv, hfi⟩ := hfreq
  have hst : ∃ v' s, IsInt w (some 0) none v' s ∧
      (find "start" u = some v' ∧ v' ≠ .none ∨ (find "start" u = none ∨ find "start" u = some .none) ∧ v' = .int 0) := by
    rcases h.start with e | e | ⟨v', b', p', q, e, eb, ep, es⟩
    · exact ⟨.int 0, _, constant_int w _ _ 0 (fun y e => by cases e; decide) (fun y e => by cases e), .inr ⟨.inl e, rfl⟩⟩
    · exact ⟨.int 0, _, constant_int w _ _ 0 (fun y e => by cases e; decide) (fun y e => by cases e), .inr ⟨.inr e, rfl⟩⟩
    · obtain ⟨x', hx'⟩ := hb b' p' eb ep
      refine ⟨v', q, ⟨es.1, es.2.1, es.2.2.1, ?_, fun y e => by cases e⟩, .inl ⟨e, ?_⟩⟩
      · intro y ey
        cases ey
        obtain ⟨l, e1, e2⟩ := es.2.2.2.1 x' hx'
        obtain ⟨l', e3, e4⟩ := ep.2.2.2.1 1 rfl
        have := ep.2.2.1 _ _ e3 hx'
        exact ⟨l, e1, by omega⟩
      · intro en; subst en; have := es.2.1; cases this
  obtain ⟨v', s, hs1, hs2⟩ := hst
  have hu : ∃ unit, find "unit" u = some (.str unit) ∧ (unit = "timesteps" ∨ unit = "episodes") := by
    rcases h.unit with e | e
    · exact ⟨_, e, .inl rfl⟩
    · exact ⟨_, e, .inr rfl⟩
  obtain ⟨unit, hu1, hu2⟩ := hu
  have hst : Stands w u ⟨unit, p, some (f, s)⟩ :=
    { keys := h.keys, unit := hu1, units := hu2, batch := ⟨b, hb1, hb2⟩,
      never := ⟨fun e => (by cases e), fun e => absurd e hn⟩,
      schedule := fun f' s' e => by cases e; exact ⟨v, x, hv, hx, hfi, v', hs1, hs2⟩ }
  have hm := (makeUpdate_ok w u _).mpr hst
  obtain ⟨y, hy⟩ := (first_update w u _ hm).2 f s rfl
  exact ⟨_, y, hm, hy⟩

/-- Timesteps with a batch size. -/
def plain (n : Int) : Args := [("unit", .str "timesteps"), ("batch_size", .int n)]

theorem plain_keys (n : Int) (rest : Args) (h : ∀ x ∈ rest, x.1 = "frequency" ∨ x.1 = "start") :
    ∀ x ∈ plain n ++ rest, x.1 = "unit" ∨ x.1 = "batch_size" ∨ x.1 = "frequency" ∨ x.1 = "start" := by
  intro x hx
  rcases List.mem_append.mp hx with e | e
  · rcases List.mem_cons.mp e with e | e
    · rw [e]; exact .inl rfl
    · cases List.mem_singleton.mp e; exact .inr (.inl rfl)
  · exact .inr (.inr (h x e))

theorem batch_is (w : World) (n : Int) (hn : 1 ≤ n) : IsInt w (some 1) none (.int n) ⟨.int n, ⟨some n, some n⟩⟩ :=
  constant_int w _ _ n (fun x e => by cases e; exact hn) (fun x e => by cases e)

example : Documented constants (plain 8) where
  keys := plain_keys 8 [] (fun x h => by cases h)
  unit := .inl rfl
  batch := ⟨_, _, rfl, batch_is constants 8 (by decide)⟩
  frequency := .inr .absent
  start := .inl rfl

example : ∃ r f s, makeUpdate constants (plain 8) = .ok r ∧ find "frequency" (plain 8) = none ∧ r.schedule = some (f, s) := by
  obtain ⟨r, x, h, h'⟩ := documented_accepted_partial constants (plain 8)
    ⟨plain_keys 8 [] (fun x h => by cases h), .inl rfl, ⟨_, _, rfl, batch_is constants 8 (by decide)⟩, .inr .absent, .inl rfl⟩
    (by nofun) (fun b p e h => by
      cases e
      have := h.2.1
      exact ⟨8, by rw [← Option.some.inj this]⟩)
    (fun v f b p x e => by cases e) (fun q e => by cases e)
  obtain ⟨f, s, hi, h1, _⟩ := (first_update constants (plain 8) r h).1 x h'
  exact ⟨r, f, s, h, rfl, h1⟩

/-- C107, violated: the documented frequency `"never"` is accepted, but then the agent cannot be initialized. -/
theorem never_violation (w : World) (n : Int) (hn : 1 ≤ n) :
    Documented w (plain n ++ [("frequency", .str "never")]) ∧
    ∃ r, makeUpdate w (plain n ++ [("frequency", .str "never")]) = .ok r ∧ initialLastUpdate r = .error .attribute := by
  have hk := plain_keys n [("frequency", Val.str "never")] (fun x h => by cases List.mem_singleton.mp h; exact .inl rfl)
  refine ⟨⟨hk, .inl rfl, ⟨_, _, rfl, batch_is w n hn⟩, .inl rfl, .inl rfl⟩, ?_⟩
  exact ⟨⟨"timesteps", _, none⟩, (makeUpdate_ok w _ _).mpr
    { keys := hk, unit := rfl, units := .inl rfl, batch := ⟨_, rfl, batch_is w n hn⟩, never := ⟨fun _ => rfl, fun _ => rfl⟩,
      schedule := fun f s e => by cases e }, rfl⟩

/-- C107, violated: a constant frequency above the batch size, and above two, is rejected. -/
theorem large_frequency_violation (w : World) (n k : Int) (hn : 1 ≤ n) (hk : max 2 n < k) :
    Documented w (plain n ++ [("frequency", .int k)]) ∧ ∀ r, makeUpdate w (plain n ++ [("frequency", .int k)]) ≠ .ok r := by
  have hk' := plain_keys n [("frequency", Val.int k)] (fun x h => by cases List.mem_singleton.mp h; exact .inl rfl)
  refine ⟨⟨hk', .inl rfl, ⟨_, _, rfl, batch_is w n hn⟩, .inr (.parameter _ _ (batch_is w k (by omega)) (by nofun)), .inl rfl⟩, ?_⟩
  intro r h
  have h := (makeUpdate_ok w _ _).mp h
  obtain ⟨b, hb1, hb2⟩ := h.batch
  cases hb1
  cases hs : r.schedule with
  | none => have := h.never.mp hs; cases this
  | some fs =>
    obtain ⟨v, x, hv, hx, hf, _⟩ := h.schedule fs.1 fs.2 hs
    cases hv with
    | given _ _ _ =>
      have h1 := hb2.2.1
      rw [show intBounds w (.int n) = some ⟨some n, some n⟩ from rfl] at h1
      simp only [Option.some.injEq] at h1
      rw [← h1] at hx
      cases hx
      obtain ⟨y, hy1, hy2⟩ := hf.2.2.2.2 _ rfl
      have h2 := hf.2.1
      rw [show intBounds w (.int k) = some ⟨some k, some k⟩ from rfl] at h2
      simp only [Option.some.injEq] at h2
      rw [← h2] at hy1
      cases hy1
      omega

/-- C107, violated: a relative frequency together with a batch size which is not a number fails with a Python error. -/
theorem relative_violation (w : World) (d : List (String × Val)) (p : Param Int) (h : IsInt w (some 1) none (.dict d) p) (q : Rat)
    (h1 : 0 < q) (h2 : q ≤ 1) :
    Documented w [("unit", .str "timesteps"), ("batch_size", .dict d), ("frequency", .float q)] ∧
    makeUpdate w [("unit", .str "timesteps"), ("batch_size", .dict d), ("frequency", .float q)] = .error .type := by
  have hk : ∀ x ∈ [("unit", Val.str "timesteps"), ("batch_size", .dict d), ("frequency", .float q)],
      x.1 = "unit" ∨ x.1 = "batch_size" ∨ x.1 = "frequency" ∨ x.1 = "start" := by
    intro x hx
    rcases List.mem_cons.mp hx with e | e
    · rw [e]; exact .inl rfl
    · rcases List.mem_cons.mp e with e | e
      · rw [e]; exact .inr (.inl rfl)
      · cases List.mem_singleton.mp e; exact .inr (.inr (.inl rfl))
  refine ⟨⟨hk, .inl rfl, ⟨_, _, rfl, h⟩, .inr (.relative q h1 h2), .inl rfl⟩, ?_⟩
  rw [makeUpdate_batch w _ "timesteps" (.dict d) ((keys_iff _).mpr hk) rfl (.inl rfl) rfl]
  rw [(intParam_ok ..).mpr h]
  show scheduleOf w _ "timesteps" (.dict d) p = _
  unfold scheduleOf
  have : frequencyOf (find "frequency" [("unit", .str "timesteps"), ("batch_size", .dict d), ("frequency", .float q)]) (.dict d) =
      .error .type := by
    show frequencyOf (some (.float q)) (.dict d) = _
    unfold frequencyOf
    dsimp only
    rw [if_neg (by rw [not_or, Rat.not_le, Rat.not_lt]; exact ⟨h1, h2⟩)]
  rw [this]
  rfl

/-- C107, violated: a batch size without upper bound fails with a Python error. -/
theorem unbounded_violation (w : World) (b : Val) (p : Param Int) (h : IsInt w (some 1) none b p) (hh : p.bounds.hi = none) :
    Documented w [("unit", .str "timesteps"), ("batch_size", b)] ∧
    makeUpdate w [("unit", .str "timesteps"), ("batch_size", b)] = .error .type := by
  have hk : ∀ x ∈ [("unit", Val.str "timesteps"), ("batch_size", b)],
      x.1 = "unit" ∨ x.1 = "batch_size" ∨ x.1 = "frequency" ∨ x.1 = "start" := by
    intro x hx
    rcases List.mem_cons.mp hx with e | e
    · rw [e]; exact .inl rfl
    · cases List.mem_singleton.mp e; exact .inr (.inl rfl)
  refine ⟨⟨hk, .inl rfl, ⟨_, _, rfl, h⟩, .inr .absent, .inl rfl⟩, ?_⟩
  rw [makeUpdate_batch w _ "timesteps" b ((keys_iff _).mpr hk) rfl (.inl rfl) rfl]
  rw [(intParam_ok ..).mpr h]
  show scheduleOf w [("unit", .str "timesteps"), ("batch_size", b)] "timesteps" b p = .error .type
  unfold scheduleOf
  rw [hh]
  rfl

/-- Every parameter which is not constant is at least one and unbounded. -/
def unbounded : World := ⟨fun _ => .ok ⟨some 1, none⟩, fun _ => .error .type⟩

theorem unbounded_is : IsInt unbounded (some 1) none (.dict []) ⟨.dict [], ⟨some 1, none⟩⟩ :=
  ⟨rfl, rfl, fun _ _ _ e => (by cases e), fun x e => (by cases e; exact ⟨1, rfl, Int.le_refl _⟩), fun x e => (by cases e)⟩

example : makeUpdate unbounded [("unit", .str "timesteps"), ("batch_size", .dict [])] = .error .type :=
  (unbounded_violation unbounded (.dict []) _ unbounded_is rfl).2

example : makeUpdate unbounded [("unit", .str "timesteps"), ("batch_size", .dict []), ("frequency", .float (1 / 2))] = .error .type :=
  (relative_violation unbounded [] _ unbounded_is (1 / 2) (by decide +kernel) (by decide +kernel)).2

/-- C107, violated: a start below the batch size is accepted. -/
theorem start_violation (w : World) :
    (∃ r, makeUpdate w (plain 10 ++ [("start", .int 1)]) = .ok r) ∧ ¬ Documented w (plain 10 ++ [("start", .int 1)]) := by
  constructor
  · refine ⟨⟨"timesteps", ⟨.int 10, ⟨some 10, some 10⟩⟩, some (⟨.int 10, ⟨some 10, some 10⟩⟩, ⟨.int 1, ⟨some 1, some 1⟩⟩)⟩, ?_⟩
    refine (makeUpdate_ok w _ _).mpr
      { keys := plain_keys 10 _ (fun x h => by cases List.mem_singleton.mp h; exact .inr rfl), unit := rfl, units := .inl rfl,
        batch := ⟨_, rfl, batch_is w 10 (by decide)⟩, never := ⟨fun e => (by cases e), fun e => (by cases e)⟩, schedule := ?_ }
    intro f s e
    cases e
    exact ⟨.int 10, 10, .absent, rfl, constant_int w _ _ 10 (fun x e => by cases e; decide) (fun x e => by cases e; decide),
      .int 1, constant_int w _ _ 1 (fun x e => by cases e; decide) (fun x e => by cases e), .inl ⟨rfl, by nofun⟩⟩
  · intro h
    rcases h.start with e | e | ⟨v, b, p, q, e1, e2, e3, e4⟩
    · cases e
    · cases e
    · cases e1
      cases e2
      have h1 := e3.2.1
      rw [show intBounds w (.int 10) = some ⟨some 10, some 10⟩ from rfl] at h1
      simp only [Option.some.injEq] at h1
      have h2 := e4.2.1
      rw [show intBounds w (.int 1) = some ⟨some 1, some 1⟩ from rfl] at h2
      simp only [Option.some.injEq] at h2
      obtain ⟨l, g1, g2⟩ := e4.2.2.2.1 10 (by rw [← h1])
      rw [← h2] at g1
      cases g1
      exact absurd g2 (by decide)

end Verif.Props.UpdateConfig
