import Verif.Rand.Lemmas

/-!
# Random hyperparameters (C123)
-/

namespace Verif.Props.Random

open Verif.Rand

/-- A uniform parameter is created exactly if its bounds, converted to its type, are in order and satisfy what is required. -/
theorem created_uniform (r : Random) (a b a' b' : ℚ) (hd : r.distribution = .uniform) (ha : Argument r.kwargs "minval" 0 a)
    (hb : Argument r.kwargs "maxval" 1 b) (ca : Converted r.isInt a a') (cb : Converted r.isInt b b') :
    create r = .ok () ↔ a' ≤ b' ∧ Satisfies r.required a' ∧ Satisfies r.required b' := by
  unfold create
  rw [checkBounds_ok]
  unfold minValue maxValue
  rw [hd]
  dsimp only
  rw [argument_eq ha, argument_eq hb, converted_eq ca, converted_eq cb, lowerOk_iff, upperOk_iff]
  show (decide (b' < a') = false ∧ _) ↔ _
  rw [decide_eq_false_iff_not, not_lt]
  constructor
  · rintro ⟨h1, h2, h3⟩
    exact ⟨h1, ⟨h2, fun d e => le_trans h1 (h3 d e)⟩, ⟨fun c e => le_trans (h2 c e) h1, h3⟩⟩
  · rintro ⟨h1, h2, h3⟩
    exact ⟨h1, h2.1, h3.2⟩

/-- A normal parameter is created exactly if no bounds are required. -/
theorem created_normal (r : Random) (hd : r.distribution = .normal) : create r = .ok () ↔ r.required.min = none ∧ r.required.max = none := by
  unfold create
  rw [checkBounds_ok]
  unfold minValue maxValue
  rw [hd]
  dsimp only
  cases r.required.min <;> cases r.required.max <;> simp [crossed, lowerOk, upperOk]

/-- The final value of a normal parameter is its mean, converted to its type. -/
theorem final_normal (r : Random) (m m' : ℚ) (hd : r.distribution = .normal) (hm : Argument r.kwargs "mean" 0 m) (cm : Converted r.isInt m m') :
    finalValue r = m' := by
  unfold finalValue
  rw [hd]
  dsimp only
  rw [argument_eq hm, converted_eq cm]

/-- Every value drawn is of the type, within the announced bounds and those required. -/
theorem valid (r : Random) (d : Draw) (v : ℚ) (hp : d.Possible) (h : value r d = .ok v) :
    Satisfies r.required v ∧ OfType r.isInt v ∧
    (r.distribution = .uniform → ∀ a b a' b', Argument r.kwargs "minval" 0 a → Argument r.kwargs "maxval" 1 b → Converted r.isInt a a' →
      Converted r.isInt b b' → a' ≤ b' → a' ≤ v ∧ v ≤ b') := by
  unfold value at h
  cases hdr : draw r d with
  | error e => rw [hdr] at h; cases h
  | ok w =>
    rw [hdr] at h
    obtain ⟨e, hs⟩ := checked_inv h
    subst e
    refine ⟨hs, ?_, ?_⟩
    · intro hi
      unfold draw at hdr
      rw [hi] at hdr
      cases hdist : r.distribution with
      | normal => rw [hdist] at hdr; cases hdr
      | uniform =>
        rw [hdist] at hdr
        change drawInt _ _ _ = _ at hdr
        unfold drawInt at hdr
        split at hdr
        · split at hdr
          · exact ⟨_, (Except.ok.inj hdr).symm⟩
          · cases hdr
        · cases hdr
    · intro hdist a b a' b' ha hb ca cb hab
      have ha := argument_eq ha
      have hb := argument_eq hb
      have ca := converted_eq ca
      have cb := converted_eq cb
      unfold draw at hdr
      rw [hdist] at hdr
      dsimp only at hdr
      cases hi : r.isInt with
      | false =>
        rw [hi] at hdr ca cb
        rw [if_neg Bool.false_ne_true, ha, hb] at hdr
        have hv := Except.ok.inj hdr
        have ea : a = a' := ca
        have eb : b = b' := cb
        subst ea eb
        rw [← hv]
        have h0 : 0 ≤ b - a := by linarith
        have h1 := mul_nonneg h0 hp.1
        have h2 := mul_nonneg h0 (show (0 : ℚ) ≤ 1 - d.unit by linarith [hp.2])
        constructor
        · linarith
        · have : (b - a) * (1 - d.unit) = (b - a) - (b - a) * d.unit := by ring
          linarith
      | true =>
        rw [hi] at hdr ca cb
        rw [if_pos rfl] at hdr
        unfold drawInt at hdr
        split at hdr
        · rename_i x y hx hy
          split at hdr
          · rename_i hxy
            have hv := Except.ok.inj hdr
            have e1 : a = x := by
              rw [← ha]
              unfold kwargOr
              cases hk : kwarg r "minval" with
              | none => rw [hk] at hx; cases hx; rfl
              | some n => rw [hk] at hx; cases hx; rfl
            have e2 : b = y := by
              rw [← hb]
              unfold kwargOr
              rw [hy]
              rfl
            rw [e1] at ca
            rw [e2] at cb
            have ca : trunc (x : ℚ) = a' := ca
            have cb : trunc (y : ℚ) = b' := cb
            rw [trunc_int] at ca cb
            rw [← hv, ← ca, ← cb]
            have p1 := Int.emod_nonneg (d.nat : Int) (show y - x ≠ 0 by omega)
            have p2 := Int.emod_lt_of_pos (d.nat : Int) (show 0 < y - x by omega)
            constructor
            · exact_mod_cast (by omega : x ≤ x + (d.nat : Int) % (y - x))
            · exact_mod_cast (by omega : x + (d.nat : Int) % (y - x) ≤ y)
          · cases hdr
        · cases hdr

/-- The bounds required never fail for a value of a created parameter. -/
theorem never_bounds (r : Random) (d : Draw) (hc : create r = .ok ()) (hp : d.Possible) : value r d ≠ .error .bounds := by
  intro h
  unfold value at h
  cases hdr : draw r d with
  | error e =>
    rw [hdr] at h
    have he : e = .bounds := Except.error.inj h
    subst he
    unfold draw drawInt at hdr
    split at hdr
    · split at hdr <;> cases hdr
    · split at hdr
      · split at hdr
        · split at hdr <;> cases hdr
        · cases hdr
      · cases hdr
  | ok v =>
    rw [hdr] at h
    change checked r.required v = _ at h
    cases hdist : r.distribution with
    | normal =>
      obtain ⟨h1, h2⟩ := (created_normal r hdist).1 hc
      rw [show checked r.required v = .ok v from checked_ok ⟨fun c e => (by rw [h1] at e; cases e), fun c e => (by rw [h2] at e; cases e)⟩] at h
      cases h
    | uniform =>
      have free : value { r with required := ⟨none, none⟩ } d = .ok v := by
        unfold value
        rw [show draw { r with required := ⟨none, none⟩ } d = draw r d from rfl, hdr]
        rfl
      have ex : ∀ name dflt, ∃ x, Argument r.kwargs name dflt x := by
        intro name dflt
        by_cases hm : Missing r.kwargs name
        · exact ⟨_, .missing hm⟩
        · have : ∃ e, r.kwargs.find? (fun e => decide (e.1 = name)) = some e := by
            cases hf : r.kwargs.find? (fun e => decide (e.1 = name)) with
            | some e => exact ⟨e, rfl⟩
            | none => exact absurd (fun e he => by simpa using List.find?_eq_none.1 hf e he) hm
          obtain ⟨⟨k, x⟩, he⟩ := this
          obtain ⟨hk, l, t, e, hl⟩ := List.find?_eq_some_iff_append.1 he
          have hk : k = name := of_decide_eq_true hk
          subst hk
          have hg : Given r.kwargs k x := ⟨l, t, e, fun e he => by simpa using hl e he⟩
          cases x with
          | int z => exact ⟨_, .int hg⟩
          | float x => exact ⟨_, .float hg⟩
      obtain ⟨a, ha⟩ := ex "minval" 0
      obtain ⟨b, hb⟩ := ex "maxval" 1
      obtain ⟨hab, s1, s2⟩ := (created_uniform r a b _ _ hdist ha hb (converted _ _) (converted _ _)).1 hc
      obtain ⟨h1, h2⟩ := (valid _ d v hp free).2.2 hdist a b _ _ ha hb (converted _ _) (converted _ _) hab
      rw [show checked r.required v = .ok v from checked_ok ⟨fun c e => le_trans (s1.1 c e) h1, fun c e => le_trans h2 (s2.2 c e)⟩] at h
      cases h

/-- Created parameters yield values if they are floats, or uniform integers whose bounds are given as integers in strict order. What is
missing: other integers, see `default_violation`, `equal_violation` and `normal_violation`. -/
theorem works_partial (r : Random) (d : Draw) (hc : create r = .ok ()) (hp : d.Possible)
    (h : r.isInt = false ∨ r.distribution = .uniform ∧ ∃ x y, (Given r.kwargs "minval" (.int x) ∨ x = 0 ∧ Missing r.kwargs "minval") ∧
      Given r.kwargs "maxval" (.int y) ∧ x < y) : ∃ v, value r d = .ok v := by
  have hd : ∃ v, draw r d = .ok v := by
    unfold draw
    rcases h with h | ⟨h1, x, y, hx, hy, hxy⟩
    · rw [h]
      cases r.distribution with
      | normal => exact ⟨_, rfl⟩
      | uniform => exact ⟨_, rfl⟩
    · rw [h1]
      dsimp only
      split
      · rw [kwarg_given hy]
        have : (kwarg r "minval").getD (.int 0) = .int x := by
          rcases hx with hx | ⟨e, hx⟩
          · rw [kwarg_given hx]; rfl
          · rw [kwarg_missing hx, e]; rfl
        rw [this]
        unfold drawInt
        dsimp only
        rw [if_pos hxy]
        exact ⟨_, rfl⟩
      · exact ⟨_, rfl⟩
  obtain ⟨v, hv⟩ := hd
  cases hval : value r d with
  | ok w => exact ⟨w, rfl⟩
  | error e =>
    exfalso
    apply never_bounds r d hc hp
    have h' := hval
    unfold value at h' ⊢
    rw [hv] at h' ⊢
    unfold checked at h' ⊢
    dsimp only at h' ⊢
    split at h'
    · cases h'
    · rename_i hn
      rw [if_neg hn]

/-- Uniform floats take exactly the values from the lower bound to below the upper bound, and uniform integers likewise. -/
theorem covers (r : Random) (v : ℚ) (hc : create r = .ok ()) (hd : r.distribution = .uniform) :
    (∀ a b, r.isInt = false → Argument r.kwargs "minval" 0 a → Argument r.kwargs "maxval" 1 b → a < b →
      ((∃ d : Draw, d.Possible ∧ value r d = .ok v) ↔ a ≤ v ∧ v < b)) ∧
    (∀ x y, r.isInt = true → Given r.kwargs "minval" (.int x) → Given r.kwargs "maxval" (.int y) → x < y →
      ((∃ d : Draw, d.Possible ∧ value r d = .ok v) ↔ ∃ z : Int, v = z ∧ x ≤ z ∧ z < y)) := by
  have key : ∀ d : Draw, d.Possible → ∀ w, draw r d = .ok w → value r d = .ok w := by
    intro d hp w hw
    have hn := never_bounds r d hc hp
    unfold value at hn ⊢
    rw [hw] at hn ⊢
    unfold checked at hn ⊢
    dsimp only at hn ⊢
    split
    · rfl
    · rename_i h; rw [if_neg h] at hn; exact absurd rfl hn
  have back : ∀ d : Draw, value r d = .ok v → draw r d = .ok v := by
    intro d h
    unfold value at h
    cases hw : draw r d with
    | error e => rw [hw] at h; cases h
    | ok w => rw [hw] at h; rw [(checked_inv h).1]
  constructor
  · intro a b hi ha hb hab
    have e : ∀ d, draw r d = .ok (a + (b - a) * d.unit) := by
      intro d
      unfold draw
      rw [hd, hi, argument_eq ha, argument_eq hb]
      rfl
    constructor
    · rintro ⟨d, hp, hv⟩
      have := Except.ok.inj ((e d).symm.trans (back d hv))
      rw [← this]
      have h0 : 0 < b - a := by linarith
      have h1 := mul_nonneg h0.le hp.1
      have h2 := mul_pos h0 (show (0 : ℚ) < 1 - d.unit by linarith [hp.2])
      have h3 : (b - a) * (1 - d.unit) = (b - a) - (b - a) * d.unit := by ring
      exact ⟨by linarith, by linarith⟩
    · rintro ⟨h1, h2⟩
      have h0 : 0 < b - a := by linarith
      have hp : Draw.Possible ⟨(v - a) / (b - a), 0, 0⟩ :=
        ⟨div_nonneg (by linarith) h0.le, (div_lt_one h0).2 (by linarith)⟩
      refine ⟨_, hp, key _ hp v ?_⟩
      rw [e]
      show Except.ok (a + (b - a) * ((v - a) / (b - a))) = _
      rw [mul_div_cancel₀ _ (ne_of_gt h0)]
      congr 1
      ring
  · intro x y hi hx hy hxy
    have e : ∀ d, draw r d = .ok ((x + (d.nat : Int) % (y - x) : Int) : ℚ) := by
      intro d
      unfold draw
      rw [hd, hi, kwarg_given hx, kwarg_given hy]
      show (if x < y then _ else _) = _
      rw [if_pos hxy]
    constructor
    · rintro ⟨d, hp, hv⟩
      have := Except.ok.inj ((e d).symm.trans (back d hv))
      have p1 := Int.emod_nonneg (d.nat : Int) (show y - x ≠ 0 by omega)
      have p2 := Int.emod_lt_of_pos (d.nat : Int) (show 0 < y - x by omega)
      exact ⟨_, this.symm, by omega, by omega⟩
    · rintro ⟨z, hv, h1, h2⟩
      have hp : Draw.Possible ⟨0, (z - x).toNat, 0⟩ := ⟨le_refl _, by norm_num⟩
      refine ⟨_, hp, key _ hp v ?_⟩
      rw [e, hv]
      have h3 : ((z - x).toNat : Int) = z - x := Int.toNat_of_nonneg (by omega)
      show Except.ok ((x + ((z - x).toNat : Int) % (y - x) : Int) : ℚ) = _
      rw [h3, Int.emod_eq_of_lt (by omega) (by omega)]
      congr 2
      omega

/-- A normal float is the mean plus the standard deviation times a standard normal number. -/
theorem normal_value (r : Random) (d : Draw) (m s : ℚ) (hc : create r = .ok ()) (hd : r.distribution = .normal) (hi : r.isInt = false)
    (hm : Argument r.kwargs "mean" 0 m) (hs : Argument r.kwargs "stddev" 1 s) : value r d = .ok (m + s * d.normal) := by
  obtain ⟨h1, h2⟩ := (created_normal r hd).1 hc
  unfold value
  rw [show draw r d = .ok (m + s * d.normal) by unfold draw; rw [hd, hi, argument_eq hm, argument_eq hs]; rfl]
  exact checked_ok ⟨fun c e => (by rw [h1] at e; cases e), fun c e => (by rw [h2] at e; cases e)⟩

/-- The final value of a uniform parameter is the middle, converted to the type, and within the announced bounds. -/
theorem final_range (r : Random) (a b a' b' : ℚ) (hc : create r = .ok ()) (hd : r.distribution = .uniform)
    (ha : Argument r.kwargs "minval" 0 a) (hb : Argument r.kwargs "maxval" 1 b) (ca : Converted r.isInt a a') (cb : Converted r.isInt b b') :
    Converted r.isInt ((a + b) / 2) (finalValue r) ∧ a' ≤ finalValue r ∧ finalValue r ≤ b' := by
  have hab := ((created_uniform r a b a' b' hd ha hb ca cb).1 hc).1
  have e : finalValue r = toDtype r.isInt ((b + a) / 2) := by
    unfold finalValue
    rw [hd, argument_eq ha, argument_eq hb]
  rw [← converted_eq ca, ← converted_eq cb] at hab ⊢
  rw [e]
  exact ⟨by rw [add_comm a b]; exact converted _ _, middle hab⟩

/-- A created parameter announces a constant exactly if its bounds are equal, and then all its values are this constant. -/
theorem constant (r : Random) (a b a' b' : ℚ) (hc : create r = .ok ()) (hd : r.distribution = .uniform)
    (ha : Argument r.kwargs "minval" 0 a) (hb : Argument r.kwargs "maxval" 1 b) (ca : Converted r.isInt a a') (cb : Converted r.isInt b b') :
    isConstant r = .ok (if a' = b' then some a' else none) ∧ (a' = b' → ∀ d : Draw, d.Possible → ∀ v, value r d = .ok v → v = a') := by
  obtain ⟨_, f1, f2⟩ := final_range r a b a' b' hc hd ha hb ca cb
  constructor
  · unfold isConstant
    have e1 : minValue r = some a' := by unfold minValue; rw [hd]; dsimp only; rw [argument_eq ha, converted_eq ca]
    have e2 : maxValue r = some b' := by unfold maxValue; rw [hd]; dsimp only; rw [argument_eq hb, converted_eq cb]
    rw [e1, e2]
    dsimp only
    split
    · rename_i h
      rw [if_pos (le_antisymm (h ▸ f2) f1)]
    · rfl
  · intro h d hp v hv
    obtain ⟨h1, h2⟩ := (valid r d v hp hv).2.2 hd a b a' b' ha hb ca cb (le_of_eq h)
    exact le_antisymm (h ▸ h2) h1

/-- A uniform integer without upper bound is announced as up to one and created, but no value can be drawn. -/
theorem default_violation (r : Random) (d : Draw) (hd : r.distribution = .uniform) (hi : r.isInt = true) (hm : Missing r.kwargs "maxval") :
    value r d = .error .draw ∧ create ⟨true, .uniform, [], ⟨none, none⟩⟩ = .ok () := by
  refine ⟨?_, by decide +kernel⟩
  have : draw r d = .error .draw := by
    unfold draw
    rw [hd, hi]
    dsimp only
    rw [if_pos rfl, kwarg_missing hm]
    unfold drawInt
    split
    · rename_i h; cases h
    · rfl
  unfold value
  rw [this]

/-- A uniform integer with equal bounds is created and announced as a constant, but no value can be drawn. -/
theorem equal_violation (x : Int) (d : Draw) : let r : Random := ⟨true, .uniform, [("minval", .int x), ("maxval", .int x)], ⟨none, none⟩⟩
    create r = .ok () ∧ isConstant r = .ok (some (x : ℚ)) ∧ value r d = .error .draw := by
  intro r
  have g1 : Given r.kwargs "minval" (.int x) := ⟨[], _, rfl, nofun⟩
  have g2 : Given r.kwargs "maxval" (.int x) := ⟨[("minval", .int x)], [], rfl, fun e he => by rw [List.mem_singleton.1 he]; show ("minval" : String) ≠ _; decide +kernel⟩
  have cx : Converted true (x : ℚ) x := by
    have := converted true (x : ℚ)
    rwa [show toDtype true (x : ℚ) = x from trunc_int x] at this
  have hc : create r = .ok () :=
    (created_uniform r x x x x rfl (.int g1) (.int g2) cx cx).2 ⟨le_refl _, ⟨nofun, nofun⟩, ⟨nofun, nofun⟩⟩
  refine ⟨hc, ?_, ?_⟩
  · rw [(constant r x x x x hc rfl (.int g1) (.int g2) cx cx).1, if_pos rfl]
  · have : draw r d = .error .draw := by
      unfold draw
      show drawInt ((kwarg r "minval").getD (.int 0)) (kwarg r "maxval") d.nat = _
      rw [kwarg_given g1, kwarg_given g2]
      show (if x < x then _ else _) = _
      rw [if_neg (lt_irrefl x)]
    unfold value
    rw [this]

/-- Normal integers are created but can never be drawn. -/
theorem normal_violation (kw : List (String × Num)) (d : Draw) : let r : Random := ⟨true, .normal, kw, ⟨none, none⟩⟩
    create r = .ok () ∧ value r d = .error .draw := ⟨rfl, rfl⟩

/-- Misspelt arguments are accepted and ignored: the values stay below the default of one. -/
theorem name_violation (x : Num) (d : Draw) (v : ℚ) (hp : d.Possible) :
    let r : Random := ⟨false, .uniform, [("max", x)], ⟨none, none⟩⟩
    create r = .ok () ∧ (value r d = .ok v → 0 ≤ v ∧ v < 1) := by
  intro r
  have m1 : Missing r.kwargs "minval" := fun e he => by rw [List.mem_singleton.1 he]; show ("max" : String) ≠ _; decide +kernel
  have m2 : Missing r.kwargs "maxval" := fun e he => by rw [List.mem_singleton.1 he]; show ("max" : String) ≠ _; decide +kernel
  have hc : create r = .ok () := (created_uniform r 0 1 0 1 rfl (.missing m1) (.missing m2) rfl rfl).2 ⟨by norm_num, ⟨nofun, nofun⟩, ⟨nofun, nofun⟩⟩
  exact ⟨hc, fun h => ((covers r v hc rfl).1 0 1 rfl (.missing m1) (.missing m2) (by norm_num)).1 ⟨d, hp, h⟩⟩

/-- A learning rate between 1/1000 and 1/100, required not to be negative. -/
example : let r : Random := ⟨false, .uniform, [("minval", .float (1 / 1000)), ("maxval", .float (1 / 100))], ⟨some 0, none⟩⟩
    create r = .ok () ∧ value r ⟨1 / 3, 0, 0⟩ = .ok (1 / 250) ∧ finalValue r = 11 / 2000 ∧ Draw.Possible ⟨1 / 3, 0, 0⟩ := by
  refine ⟨by decide +kernel, by decide +kernel, by decide +kernel, by norm_num, by norm_num⟩

/-- An integer from 2 to below 5. -/
example : let r : Random := ⟨true, .uniform, [("minval", .int 2), ("maxval", .int 5)], ⟨some 1, none⟩⟩
    create r = .ok () ∧ value r ⟨0, 7, 0⟩ = .ok 3 ∧ finalValue r = 3 ∧ isConstant r = .ok none := by
  refine ⟨by decide +kernel, by decide +kernel, by decide +kernel, by decide +kernel⟩

/-- A normal parameter where nonnegative values are required, and a uniform one below the requirement, are rejected. -/
example : create ⟨false, .normal, [], ⟨some 0, none⟩⟩ = .error .value ∧ create ⟨false, .uniform, [("minval", .int (-1))], ⟨some 0, none⟩⟩ = .error .value ∧
    create ⟨false, .uniform, [("minval", .int 3)], ⟨none, none⟩⟩ = .error .assertion := by
  refine ⟨by decide +kernel, by decide +kernel, by decide +kernel⟩

end Verif.Props.Random
