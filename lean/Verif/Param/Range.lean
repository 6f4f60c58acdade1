import Verif.Param.Lemmas

/-! # Range, start and limit of decaying hyperparameters: helper lemmas -/

namespace Verif.Param

/-- Effect of `scale` on a pair of bounds, as in `bounds`. -/
def scalePair (s : Rat) (b : Rat × Rat) : Rat × Rat :=
  if s = 1 then b else if 0 ≤ s then (s * b.1, s * b.2) else (s * b.2, s * b.1)

/-- Effect of `scale` on a value, as in `post`. -/
def scaleVal (s x : Rat) : Rat := if s = 1 then x else x * s

theorem scaleVal_eq (s x : Rat) : scaleVal s x = x * s := by
  unfold scaleVal; split
  · rename_i h; rw [h]; grind
  · rfl

theorem scale_range {s x : Rat} {b : Rat × Rat} (h : b.1 ≤ x ∧ x ≤ b.2) :
    (scalePair s b).1 ≤ scaleVal s x ∧ scaleVal s x ≤ (scalePair s b).2 := by
  rw [scaleVal_eq]
  unfold scalePair
  have key := scaled_range (x0 := s) h
  split
  · rename_i h1; rw [h1, Rat.mul_one]; exact h
  · split
    · have := key.1 (by assumption); rw [Rat.mul_comm x s]; exact this
    · have := key.2 (by grind); rw [Rat.mul_comm x s]; exact this

/-- The parts of a successful `bounds`. -/
theorem bounds_parts {p : Param} {f : Rat → Bool} {b : Rat × Rat} (h : bounds p f = some b) :
    ∃ lo hi, rawBounds p.decay p.initial = some (lo, hi) ∧ (p.increasing = true → 0 ≤ lo ∧ hi ≤ 1) ∧
      (p.inverse = true → f (if p.increasing then (1 - hi, 1 - lo) else (lo, hi)).1 = true) ∧
      b = scalePair p.scale (if p.inverse then
        (1 / (if p.increasing then (1 - hi, 1 - lo) else (lo, hi)).2, 1 / (if p.increasing then (1 - hi, 1 - lo) else (lo, hi)).1)
        else (if p.increasing then (1 - hi, 1 - lo) else (lo, hi))) := by
  unfold bounds at h
  split at h
  · cases h
  · rename_i lo hi hr
    split at h
    · cases h
    · split at h
      · cases h
      · rename_i hinc
        simp only at h
        by_cases hbad : p.inverse = true ∧ ¬ (f (if p.increasing = true then (1 - hi, 1 - lo) else (lo, hi)).1 = true ∧
            (if p.increasing = true then (1 - hi, 1 - lo) else (lo, hi)).1 ≤ (if p.increasing = true then (1 - hi, 1 - lo) else (lo, hi)).2)
        · rw [if_pos hbad] at h; cases h
        · rw [if_neg hbad] at h
          refine ⟨lo, hi, hr, by grind, fun hi' => ?_, ?_⟩
          · exact (Classical.byContradiction fun hc => hbad ⟨hi', fun hh => hc hh.1⟩)
          · exact (Option.some.inj h).symm

/-- What is inverted stays between the bounds before inversion. -/
theorem post_parts {p : Param} {eps x v : Rat} (h : post p eps x = some v) :
    (p.increasing = true → 0 ≤ x ∧ x ≤ 1) ∧ v = toDtype p.isInt (scaleVal p.scale
      (if p.inverse then 1 / (if 0 < (if p.increasing then 1 - x else x) then (if p.increasing then 1 - x else x) + eps
        else (if p.increasing then 1 - x else x) - eps) else (if p.increasing then 1 - x else x))) := by
  unfold post at h
  split at h
  · cases h
  · simp only [Option.some.injEq] at h
    refine ⟨by grind, ?_⟩
    rw [← h]; rfl

theorem inv_antitone {x y : Rat} (hx : 0 < x) (h : x ≤ y) : 1 / y ≤ 1 / x := by
  have ex : x * x⁻¹ = 1 := Rat.mul_inv_cancel _ (by grind)
  have ey : y * y⁻¹ = 1 := Rat.mul_inv_cancel _ (by grind)
  have px : 0 < x⁻¹ := Rat.inv_pos.mpr hx
  have py : 0 < y⁻¹ := Rat.inv_pos.mpr (by grind)
  have := mul_up (x := x⁻¹ * y⁻¹) (Rat.mul_nonneg (by grind) (by grind)) h
  have e1 : x⁻¹ * y⁻¹ * x = y⁻¹ := by grind
  have e2 : x⁻¹ * y⁻¹ * y = x⁻¹ := by grind
  rw [e1, e2] at this
  rw [Rat.div_def, Rat.div_def, Rat.one_mul, Rat.one_mul]
  exact this

theorem flip_range {inc : Bool} {lo hi x : Rat} (h : lo ≤ x ∧ x ≤ hi) :
    (if inc then (1 - hi, 1 - lo) else (lo, hi)).1 ≤ (if inc then 1 - x else x) ∧
    (if inc then 1 - x else x) ≤ (if inc then (1 - hi, 1 - lo) else (lo, hi)).2 := by
  cases inc <;> simp <;> grind

theorem post_range {p : Param} {eps x v lo hi mn mx : Rat} (hp : p.inverse = false ∨ eps = 0)
    (hr : rawBounds p.decay p.initial = some (lo, hi)) (hx : lo ≤ x ∧ x ≤ hi) (hmn : p.minValue eps = some mn) (hmx : p.maxValue = some mx)
    (hv : post p eps x = some v) : mn ≤ v ∧ v ≤ mx := by
  unfold Param.minValue at hmn
  unfold Param.maxValue at hmx
  obtain ⟨b, hb, rfl⟩ := Option.map_eq_some_iff.mp hmn
  obtain ⟨c, hc, rfl⟩ := Option.map_eq_some_iff.mp hmx
  obtain ⟨lo1, hi1, hr1, -, -, rfl⟩ := bounds_parts hb
  obtain ⟨lo2, hi2, hr2, -, hpos, rfl⟩ := bounds_parts hc
  rw [hr] at hr1 hr2
  cases hr1; cases hr2
  obtain ⟨-, rfl⟩ := post_parts hv
  have hf := flip_range (inc := p.increasing) hx
  generalize (if p.increasing then (1 - hi, 1 - lo) else (lo, hi)) = q at *
  generalize (if p.increasing then 1 - x else x) = y at *
  cases hi' : p.inverse with
  | false =>
    simp only [Bool.false_eq_true, if_false]
    have := scale_range (s := p.scale) hf
    exact ⟨cast_mono this.1, cast_mono this.2⟩
  | true =>
    simp only [hi', if_true] at *
    have h0 : 0 < q.1 := by simpa using hpos
    have he : eps = 0 := by simpa using hp
    have e : (if 0 < y then y + eps else y - eps) = y := by grind
    rw [e]
    have := scale_range (s := p.scale) (b := (1 / q.2, 1 / q.1)) (x := 1 / y)
      ⟨inv_antitone (by grind) hf.2, inv_antitone h0 hf.1⟩
    exact ⟨cast_mono this.1, cast_mono this.2⟩

theorem post_defined {p : Param} {eps x : Rat} {f : Rat → Bool} {b : Rat × Rat} {lo hi : Rat} (hb : bounds p f = some b)
    (hr : rawBounds p.decay p.initial = some (lo, hi)) (hx : lo ≤ x ∧ x ≤ hi) : (post p eps x).isSome = true := by
  obtain ⟨lo1, hi1, hr1, hinc, -, -⟩ := bounds_parts hb
  rw [hr] at hr1; cases hr1
  unfold post
  split
  · grind
  · rfl

theorem bounds_raw {p : Param} {f : Rat → Bool} {b : Rat × Rat} (hb : bounds p f = some b) :
    ∃ lo hi, rawBounds p.decay p.initial = some (lo, hi) := by
  obtain ⟨lo, hi, h, _⟩ := bounds_parts hb
  exact ⟨lo, hi, h⟩

/-! ## Start -/

theorem part_zero (d : Nat) : part d 0 = 0 := by
  unfold part; rw [Nat.zero_min, Rat.div_def]; grind

theorem ratio_zero (d : Nat) (st : Bool) : ratio d 0 st = 0 := by
  unfold ratio; split
  · simp
  · rw [Rat.div_def]; grind

theorem raw_zero {o : Oracle} (ho : Lawful o) (dec : Decay) (hdec : dec.StartsAtInitial) (x0 : Rat) (d : Nat) :
    raw o dec x0 d 0 = x0 := by
  have hz : ((0 : Nat) : Rat) / (d : Rat) = 0 := by rw [Rat.div_def]; grind
  cases dec with
  | cosine al => simp only [raw, part_zero, ho.cos_zero]; grind
  | cosineRestarts t m al =>
    simp only [raw, hz, ho.restarts_zero, Nat.zero_div, ite_self]
    have : (if t = 1 then (0 : Rat) - ((0 : Nat) : Rat) else ((0 : Rat) - (1 - t ^ 0) / (1 - t)) / t ^ 0) = 0 := by
      split
      · grind
      · rw [Rat.pow_zero, Rat.div_def, Rat.div_def]; grind
    rw [this, Rat.pow_zero, ho.cos_zero]; grind
  | exponential r st => simp only [raw, ratio_zero, ho.pow_zero]; grind
  | inverseTime r st =>
    simp only [raw, ratio_zero]
    have : (1 + r * 0 : Rat) = 1 := by grind
    rw [this]; grind
  | linearCosine n al be => exact hdec.elim
  | linearCosineNoisy n al be => exact hdec.elim
  | polynomial f pw cyc =>
    have hl : ((0 : Nat) : Rat) / ((d * 1 : Nat) : Rat) = 0 := by rw [Rat.div_def]; grind
    simp only [raw, part_zero, if_true, hl, ite_self]
    have : (1 - 0 : Rat) = 1 := by grind
    rw [this, ho.one_pow]; grind

/-! ## Limit -/

theorem part_full (d step : Nat) (hd : 0 < d) (h : d ≤ step) : part d step = 1 := by
  unfold part
  rw [Nat.min_eq_right h, Rat.div_def]
  exact Rat.mul_inv_cancel _ (by have : (0 : Rat) < (d : Rat) := by exact_mod_cast hd
                                 grind)

theorem ratio_large (d n : Nat) (st : Bool) (hd : 0 < d) : ∀ k, d * n ≤ k → (n : Rat) ≤ ratio d k st := by
  intro k hk
  have hd' : (0 : Rat) < (d : Rat) := by exact_mod_cast hd
  unfold ratio
  split
  · have : n ≤ k / d := (Nat.le_div_iff_mul_le hd).mpr (by rw [Nat.mul_comm]; exact hk)
    exact_mod_cast this
  · have h1 : (d : Rat) * (n : Rat) ≤ (k : Rat) := by exact_mod_cast hk
    have hi : 0 < (d : Rat)⁻¹ := Rat.inv_pos.mpr hd'
    have e : (d : Rat) * (d : Rat)⁻¹ = 1 := Rat.mul_inv_cancel _ (by grind)
    rw [Rat.div_def]
    have := mul_up (x := (d : Rat)⁻¹) (by grind) h1
    have e2 : (d : Rat)⁻¹ * ((d : Rat) * (n : Rat)) = n := by grind
    rw [e2, Rat.mul_comm] at this
    exact this

theorem exists_nat_ge (x : Rat) : ∃ n : Nat, x ≤ (n : Rat) := by
  refine ⟨x.ceil.toNat, ?_⟩
  have h1 := Rat.le_ceil (x := x)
  have h2 : x.ceil ≤ (x.ceil.toNat : Int) := by omega
  have h3 : ((x.ceil : Int) : Rat) ≤ ((x.ceil.toNat : Int) : Rat) := by exact_mod_cast h2
  have h4 : (((x.ceil.toNat : Nat) : Int) : Rat) = ((x.ceil.toNat : Nat) : Rat) := rfl
  grind

/-- A sequence of numbers tends to a limit. -/
def Limit (f : Nat → Rat) (l : Rat) : Prop := ∀ ε : Rat, 0 < ε → ∃ n : Nat, ∀ k, n ≤ k → l - ε ≤ f k ∧ f k ≤ l + ε

theorem Limit.const_from {f : Nat → Rat} {l : Rat} (n : Nat) (h : ∀ k, n ≤ k → f k = l) : Limit f l := by
  intro ε hε
  refine ⟨n, fun k hk => ?_⟩
  rw [h k hk]; grind

/-- A vanishing nonnegative factor. -/
theorem Limit.mul_vanish {u : Nat → Rat} (c : Rat) (h0 : ∀ k, 0 ≤ u k) (h : ∀ ε : Rat, 0 < ε → ∃ n : Nat, ∀ k, n ≤ k → u k ≤ ε) :
    Limit (fun k => c * u k) 0 := by
  intro ε hε
  obtain ⟨m, hm, hcm⟩ : ∃ m : Rat, 0 < m ∧ (c ≤ m ∧ -m ≤ c) := by
    by_cases hc : 0 ≤ c
    · exact ⟨c + 1, by grind, by grind⟩
    · exact ⟨1 - c, by grind, by grind⟩
  have hi : 0 < m⁻¹ := Rat.inv_pos.mpr hm
  have e : m * m⁻¹ = 1 := Rat.mul_inv_cancel _ (by grind)
  obtain ⟨n, hn⟩ := h (ε * m⁻¹) (Rat.mul_pos hε hi)
  refine ⟨n, fun k hk => ?_⟩
  have h1 := mul_up (x := m) (by grind) (hn k hk)
  have h2 := mul_up (h0 k) hcm.1
  have h3 := mul_up (h0 k) hcm.2
  have e1 : m * (ε * m⁻¹) = ε := by grind
  rw [e1] at h1
  dsimp only
  clear h hn
  generalize u k = w at *
  have e2 : w * -m = -(m * w) := by grind
  have e3 : w * c = c * w := by grind
  have e4 : w * m = m * w := by grind
  rw [e2, e3] at h3
  rw [e3, e4] at h2
  generalize c * w = a at *
  generalize m * w = b at *
  clear e e1 e2 e3 e4 hi
  constructor <;> grind

theorem Limit.add_const {f : Nat → Rat} {l : Rat} (h : Limit f l) (c : Rat) : Limit (fun k => f k + c) (l + c) := by
  intro ε hε
  obtain ⟨n, hn⟩ := h ε hε
  exact ⟨n, fun k hk => by have := hn k hk; constructor <;> grind⟩

theorem Limit.one_sub {f : Nat → Rat} {l : Rat} (h : Limit f l) : Limit (fun k => 1 - f k) (1 - l) := by
  intro ε hε
  obtain ⟨n, hn⟩ := h ε hε
  exact ⟨n, fun k hk => by have := hn k hk; constructor <;> grind⟩

theorem Limit.mul_const {f : Nat → Rat} {l : Rat} (h : Limit f l) (c : Rat) : Limit (fun k => f k * c) (l * c) := by
  intro ε hε
  obtain ⟨m, hm, hcm⟩ : ∃ m : Rat, 0 < m ∧ (c ≤ m ∧ -m ≤ c) := by
    by_cases hc : 0 ≤ c
    · exact ⟨c + 1, by grind, by grind⟩
    · exact ⟨1 - c, by grind, by grind⟩
  have hi : 0 < m⁻¹ := Rat.inv_pos.mpr hm
  have e : m * m⁻¹ = 1 := Rat.mul_inv_cancel _ (by grind)
  have hpos := Rat.mul_pos hε hi
  obtain ⟨n, hn⟩ := h (ε * m⁻¹) hpos
  refine ⟨n, fun k hk => ?_⟩
  obtain ⟨ha, hb⟩ := hn k hk
  have hδ : m * (ε * m⁻¹) = ε := by grind
  generalize ε * m⁻¹ = δ at *
  by_cases hc : 0 ≤ c
  · have h1 := mul_up hc ha
    have h2 := mul_up hc hb
    have h3 := mul_up (x := δ) (by grind) hcm.1
    constructor <;> grind
  · have h1 := mul_down (x := c) (by grind) ha
    have h2 := mul_down (x := c) (by grind) hb
    have h3 := mul_up (x := δ) (by grind) hcm.2
    constructor <;> grind

theorem laps_large (d n step : Nat) (hd : 0 < d) (h : d * n ≤ step) : n ≤ laps d step := by
  unfold laps
  split
  · rename_i h0
    subst h0
    have : d * n = 0 := by omega
    rcases Nat.mul_eq_zero.mp this with h | h <;> omega
  · exact (Nat.le_div_iff_mul_le hd).mpr (by rw [Nat.mul_comm]; omega)

theorem laps_gap (d step : Nat) (hd : 0 < d) : d * laps d step < step + d ∨ step = 0 := by
  unfold laps
  split
  · right; assumption
  · left
    have := Nat.mul_div_le (step + d - 1) d
    omega

/-- The remaining fraction of a cycling polynomial decay is at most one over the number of laps. -/
theorem cycle_rest (d step : Nat) (hd : 0 < d) :
    1 - (step : Rat) / ((d * laps d step : Nat) : Rat) ≤ 1 / (laps d step : Rat) := by
  obtain ⟨_, hl0⟩ := laps_le d step hd
  have hg := laps_gap d step hd
  by_cases h0 : step = 0
  · subst h0
    simp only [laps, if_true]
    rw [Rat.div_def]; grind
  have hg : d * laps d step < step + d := by omega
  generalize laps d step = l at *
  have hd' : (0 : Rat) < (d : Rat) := by exact_mod_cast hd
  have hl' : (0 : Rat) < (l : Rat) := by exact_mod_cast hl0
  have h1 : (d : Rat) * (l : Rat) ≤ (step : Rat) + (d : Rat) := by exact_mod_cast Nat.le_of_lt hg
  have hdl := Rat.mul_pos hd' hl'
  have e : ((d * l : Nat) : Rat) = (d : Rat) * (l : Rat) := by exact_mod_cast rfl
  rw [e]
  have i1 := Rat.inv_pos.mpr hdl
  have e1 : ((d : Rat) * (l : Rat)) * ((d : Rat) * (l : Rat))⁻¹ = 1 := Rat.mul_inv_cancel _ (by grind)
  have e2 : (l : Rat) * (l : Rat)⁻¹ = 1 := Rat.mul_inv_cancel _ (by grind)
  rw [Rat.div_def, Rat.div_def]
  generalize ((d : Rat) * (l : Rat))⁻¹ = z at *
  have h2 := mul_up (x := z) (by grind) h1
  have h3 : (d : Rat) * z = (l : Rat)⁻¹ := by
    have : (l : Rat)⁻¹ * ((d : Rat) * (l : Rat) * z) = (l : Rat)⁻¹ := by grind
    grind
  grind

/-- The limit of the plain decay, when it is the one `finalValue` names. -/
def rawFinal (dec : Decay) (x0 : Rat) : Rat :=
  match dec with
  | .cosine al | .cosineRestarts _ _ al => x0 * al
  | .exponential r _ | .inverseTime r _ => if r = 1 then x0 else 0
  | .linearCosine _ _ be | .linearCosineNoisy _ _ be => x0 * be
  | .polynomial f pw _ => if pw = 0 then x0 else f

theorem raw_limit {o : Oracle} (ho : Lawful o) (dec : Decay) (hs : dec.Settles) (hv : valid dec = true) (x0 : Rat) (d : Nat) (hd : 0 < d)
    (hr : ∀ r st, dec = .exponential r st ∨ dec = .inverseTime r st → r ≤ 1) (hnr : ∀ t m al, dec ≠ .cosineRestarts t m al) :
    Limit (raw o dec x0 d) (rawFinal dec x0) := by
  cases dec with
  | cosine al =>
    refine Limit.const_from d fun k hk => ?_
    simp only [raw, rawFinal, part_full d k hd hk, ho.cos_one]; grind
  | cosineRestarts t m al => exact absurd rfl (hnr t m al)
  | exponential r st =>
    have h1 := hr r st (Or.inl rfl)
    have h0 : 0 ≤ r := by simpa [valid] using hv
    simp only [rawFinal]
    split
    · rename_i h; subst h
      exact Limit.const_from 0 fun k _ => by simp only [raw, ho.one_pow]; grind
    · have hlt : r < 1 := by grind
      refine Limit.mul_vanish (u := fun k => o.pow r (ratio d k st)) x0 (fun k => ho.pow_nonneg _ _ h0 h1 (ratio_nonneg d k st hd)) ?_
      intro ε hε
      obtain ⟨n, hn⟩ := ho.pow_vanish r ε h0 hlt hε
      exact ⟨d * n, fun k hk => hn _ (ratio_large d n st hd k hk)⟩
  | inverseTime r st =>
    have hne : r ≠ 1 := hs.2
    have h0 : 0 < r := hs.1
    simp only [rawFinal, if_neg hne]
    have hf : raw o (.inverseTime r st) x0 d = fun k => x0 * (1 + r * ratio d k st)⁻¹ := by
      funext k; simp only [raw, Rat.div_def]
    rw [hf]
    have hpos : ∀ k, 0 < 1 + r * ratio d k st := fun k => by
      have := Rat.mul_nonneg (by grind : 0 ≤ r) (ratio_nonneg d k st hd)
      grind
    refine Limit.mul_vanish (u := fun k => (1 + r * ratio d k st)⁻¹) x0 (fun k => by have := Rat.inv_pos.mpr (hpos k); grind) ?_
    intro ε hε
    have hp := Rat.mul_pos h0 hε
    obtain ⟨n, hn⟩ := exists_nat_ge (r * ε)⁻¹
    refine ⟨d * n, fun k hk => ?_⟩
    have hq := ratio_large d n st hd k hk
    have e1 : (r * ε) * (r * ε)⁻¹ = 1 := Rat.mul_inv_cancel _ (by grind)
    have e2 : (1 + r * ratio d k st) * (1 + r * ratio d k st)⁻¹ = 1 := Rat.mul_inv_cancel _ (by have := hpos k; grind)
    have i2 := Rat.inv_pos.mpr (hpos k)
    generalize (1 + r * ratio d k st)⁻¹ = z at *
    have a1 := mul_up (x := r * ε) (by grind) (show (r * ε)⁻¹ ≤ ratio d k st by grind)
    have a2 : 1 ≤ ε * (1 + r * ratio d k st) := by grind
    have a3 := mul_up (x := z) (by grind) a2
    have e3 : z * (ε * (1 + r * ratio d k st)) = ε := by
      have : z * (ε * (1 + r * ratio d k st)) = ε * ((1 + r * ratio d k st) * z) := by grind
      rw [this, e2, Rat.mul_one]
    rw [e3, Rat.mul_one] at a3
    exact a3
  | linearCosine n al be =>
    refine Limit.const_from d fun k hk => ?_
    simp only [raw, rawFinal, part_full d k hd hk]
    rcases hs with h | h
    · subst h; grind
    · subst h
      have : (2 * (1 / 2) * 1 : Rat) = 1 := by decide +kernel
      rw [this, ho.cos_one]; grind
  | linearCosineNoisy n al be =>
    refine Limit.const_from d fun k hk => ?_
    have h : n = 1 / 2 := hs
    subst h
    simp only [raw, rawFinal, part_full d k hd hk]
    have : (2 * (1 / 2) * 1 : Rat) = 1 := by decide +kernel
    rw [this, ho.cos_one]; grind
  | polynomial f pw cyc =>
    have hpw : 0 ≤ pw := by simpa [valid] using hv
    simp only [rawFinal]
    split
    · rename_i h; subst h
      exact Limit.const_from 0 fun k _ => by simp only [raw, ho.pow_zero]; grind
    · have hpos : 0 < pw := by grind
      have hf : raw o (.polynomial f pw cyc) x0 d = fun (k : Nat) => (x0 - f) *
          o.pow (1 - (if cyc then (k : Rat) / ((d * laps d k : Nat) : Rat) else part d k)) pw + f := by
        funext k; simp only [raw, laps]
      rw [hf]
      have hq : ∀ k : Nat, 0 ≤ (if cyc then (k : Rat) / ((d * laps d k : Nat) : Rat) else part d k) ∧
          (if cyc then (k : Rat) / ((d * laps d k : Nat) : Rat) else part d k) ≤ 1 := fun k => by
        have hl := laps_le d k hd
        split
        · exact quot_range _ _ (Nat.mul_pos hd hl.2) hl.1
        · exact part_range d k hd
      have hl := Limit.mul_vanish (u := fun (k : Nat) => o.pow (1 - (if cyc then (k : Rat) / ((d * laps d k : Nat) : Rat) else part d k)) pw)
        (x0 - f) (fun k => ho.pow_nonneg _ _ (by have := hq k; grind) (by have := hq k; grind) hpw) ?_
      · have := hl.add_const f
        rwa [Rat.zero_add] at this
      · intro ε hε
        obtain ⟨δ, hδ, hsm⟩ := ho.pow_small pw ε hpos hε
        obtain ⟨n, hn⟩ := exists_nat_ge δ⁻¹
        refine ⟨d * (n + 1), fun k hk => hsm _ (by have := hq k; grind) ?_⟩
        cases cyc with
        | false =>
          simp only [Bool.false_eq_true, if_false]
          rw [part_full d k hd (Nat.le_trans (Nat.le_mul_of_pos_right d (Nat.succ_pos n)) hk)]; grind
        | true =>
          simp only [if_true]
          have h1 := cycle_rest d k hd
          have h2 := laps_large d (n + 1) k hd hk
          have h3 : ((n : Nat) : Rat) ≤ (laps d k : Rat) := by
            have : n ≤ laps d k := by omega
            exact_mod_cast this
          have hp := Rat.inv_pos.mpr hδ
          have h4 := inv_antitone hp (show δ⁻¹ ≤ (laps d k : Rat) by grind)
          have e : 1 / δ⁻¹ = δ := by rw [Rat.div_def, Rat.inv_inv]; grind
          grind

theorem scale_limit {f : Nat → Rat} {l : Rat} (h : Limit f l) (s : Rat) : Limit (fun k => scaleVal s (f k)) (scaleVal s l) := by
  simp only [scaleVal_eq]; exact h.mul_const s

theorem flip_limit {f : Nat → Rat} {l : Rat} (h : Limit f l) (inc : Bool) :
    Limit (fun k => if inc then 1 - f k else f k) (if inc then 1 - l else l) := by
  cases inc with
  | false => simpa using h
  | true => simpa using h.one_sub

end Verif.Param
