import Verif.Layer.ConvLemmas
import Verif.Layer.RetrieveLemmas

/-! # C43: layers compute tensors of the shape they announce, or cannot be built

`Agrees` says that if the graph can be built, the tensor computed for a batch of any size has the announced shape. The theorems ending in
`_builds` say which layers can be built, and with what shape. -/

namespace Verif.Props.Shape

open Verif.Layer

/-! ## Reshape and flatten -/

theorem reshape (target : List Int) (x : List Nat) : Agrees (announceReshape target x) (computeReshape target x) := by
  intro a ha n
  obtain ⟨l, s, h1, -, hpos, rfl, -⟩ := construct_ok ha
  unfold announceReshape at h1
  split at h1
  · cases h1
  · rename_i hsize
    split at h1
    · cases h1
    · cases h1
      obtain ⟨e1, e2⟩ := product_toNat hpos
      unfold computeReshape
      rw [if_neg]
      · exact tfReshape_same (by omega) (by omega) _
      · intro h
        obtain ⟨y, hy, h0⟩ := List.any_eq_true.mp h
        have := hpos y hy
        simp only [decide_eq_true_eq] at h0
        omega

example : construct (announceReshape [2, 6] [3, 4]) (computeReshape [2, 6] [3, 4] none) = .ok [2, 6] := rfl

/-- Every target of the same size can be used. -/
theorem reshape_builds {target x : List Nat} (ht : ∀ d ∈ target, 0 < d) (h : volume target = volume x) :
    Builds (announceReshape (target.map Int.ofNat) x) (computeReshape (target.map Int.ofNat) x) target := by
  rw [← size_eq, ← size_eq] at h
  have hp : ∀ y ∈ target.map Int.ofNat, 0 < y := by
    intro y hy
    obtain ⟨d, hd, rfl⟩ := List.mem_map.mp hy
    exact Int.ofNat_lt.mpr (ht d hd)
  obtain ⟨e1, e2⟩ := product_toNat hp
  rw [toNat_ofNat] at e1
  have ha : announceReshape (target.map Int.ofNat) x = .ok (target.map Int.ofNat) := by
    unfold announceReshape
    rw [if_neg (by omega), if_neg]
    intro hany
    obtain ⟨y, hy, h0⟩ := List.any_eq_true.mp hany
    have := hp y hy
    simp only [decide_eq_true_eq] at h0
    omega
  have hc : computeReshape (target.map Int.ofNat) x none = .ok (none :: target.map some) := by
    unfold computeReshape
    rw [if_neg]
    · rw [toNat_ofNat]; exact tfReshape_same h (by omega) _
    · intro hany
      obtain ⟨y, hy, h0⟩ := List.any_eq_true.mp hany
      have := hp y hy
      simp only [decide_eq_true_eq] at h0
      omega
  unfold Builds
  rw [ha, hc]
  exact construct_known ht

example : volume [2, 6] = volume [3, 4] := by decide

/-- No target of another size can. -/
theorem reshape_size {target : List Int} {x a : List Nat} (h : Builds (announceReshape target x) (computeReshape target x) a) : volume a = volume x := by
  rw [← size_eq, ← size_eq]
  obtain ⟨l, s, h1, -, hpos, rfl, -⟩ := construct_ok h
  unfold announceReshape at h1
  split at h1
  · cases h1
  · split at h1
    · cases h1
    · cases h1
      have := (product_toNat hpos).1
      omega

theorem pooling (r : Reduction) (x : List Nat) : Agrees (announcePooling r x) (computePooling r x) := by
  intro a ha n
  obtain ⟨l, s, h1, -, hpos, rfl, -⟩ := construct_ok ha
  unfold announcePooling at h1
  unfold computePooling
  cases r with
  | concat =>
    cases h1
    have := hpos (size x) (by simp)
    exact tfReshape_same (by simp [size]) (by omega) _
  | other =>
    dsimp only at h1 ⊢
    split at h1
    · cases h1
    · rename_i l hl
      cases h1
      exact dropAxis1_last hl _

/-- Concatenation gives the number of elements, other reductions leave the last axis. -/
theorem pooling_builds {x : List Nat} (hx : ∀ d ∈ x, 0 < d) :
    Builds (announcePooling .concat x) (computePooling .concat x) [volume x] ∧
      ∀ l, x.getLast? = some l → Builds (announcePooling .other x) (computePooling .other x) [l] := by
  rw [← size_eq]
  have h0 : 0 < size x := by
    have := product_toNat (l := x.map Int.ofNat) (fun y hy => by
      obtain ⟨d, hd, rfl⟩ := List.mem_map.mp hy
      exact Int.ofNat_lt.mpr (hx d hd))
    rw [toNat_ofNat] at this
    omega
  constructor
  · have : computePooling .concat x none = .ok (none :: [size x].map some) :=
      tfReshape_same (target := [size x]) (by simp [size]) h0 none
    unfold Builds
    rw [this]
    exact construct_known (a := [size x]) (by simpa using h0)
  · intro l hl
    have h1 : announcePooling .other x = .ok ([l].map Int.ofNat) := by unfold announcePooling; dsimp only; rw [hl]; rfl
    have h2 : computePooling .other x none = .ok (none :: [l].map some) := dropAxis1_last hl none
    unfold Builds
    rw [h1, h2]
    refine construct_known (a := [l]) ?_
    intro d hd
    rw [List.mem_singleton.mp hd]
    exact hx l (List.mem_of_getLast? hl)

example : Builds (announcePooling .other [3, 4]) (computePooling .other [3, 4]) [4] := (pooling_builds (by decide)).2 4 rfl

theorem flatten (x : List Nat) : Agrees (announcePooling .concat x) (computeFlatten x) := by
  unfold computeFlatten
  by_cases h : x = []
  · subst h
    intro a ha n
    obtain ⟨l, s, h1, -, -, rfl, -⟩ := construct_ok ha
    cases h1
    rfl
  · simp only [if_neg h]
    exact pooling .concat x

theorem flatten_builds {x : List Nat} (hx : ∀ d ∈ x, 0 < d) : Builds (announcePooling .concat x) (computeFlatten x) [volume x] := by
  unfold computeFlatten
  by_cases h : x = []
  · subst h; rfl
  · simp only [if_neg h]
    exact (pooling_builds hx).1

example : Builds (announcePooling .concat []) (computeFlatten []) [1] := flatten_builds (by simp)

/-! ## Convolution -/

/-- Convolutions over one or more axes. -/
theorem conv {as : List Axis} (has : as ≠ []) (p : Padding) (t : Trans) (x : List Nat) : Agrees (announceConv p as t x) (computeConv p as t x) := by
  refine agrees_of_known fun s hs => ?_
  unfold computeConv at hs ⊢
  split at hs
  · cases hs
  · rename_i a ha
    split at hs
    · cases hs
    · rename_i lens hl
      exact ⟨_, fun b => apply_known (.inl (announceConv_ne has ha)) hs b⟩

/-- With the usual paddings and no `crelu`, the layer can be built if the inputs are long enough; it has as many outputs as there are windows. -/
theorem conv_builds {p : Padding} (hp : p = .same ∨ p = .valid) {as : List Axis} (ha : ∀ a ∈ as, a.Valid) {t : Trans} (ht : t.crelu = false)
    {ns : List Nat} (hn : AllLong p ns as) (c : Nat) :
    ∃ lens, EachAxis (Windows p) ns as lens ∧
      Builds (announceConv p as t (ns ++ [c])) (computeConv p as t (ns ++ [c])) (if t.size = 0 then lens else lens ++ [(max t.size 1).toNat]) := by
  obtain ⟨lens, h1, h2, h3⟩ := perAxis_ok (f := convOutputLength p) (g := windowed p) (P := Windows p) (fun n a hm hl => conv_axis hp (ha a hm) hl) hn
  refine ⟨lens, h3, ?_⟩
  have e1 : announceConv p as t (ns ++ [c]) = .ok ((if t.squeeze then lens else lens ++ [t.channels]).map Int.ofNat) := by
    unfold announceConv
    rw [if_neg (by simp), List.dropLast_concat, h1]
    dsimp only
    split <;> simp
  have e2 : computeConv p as t (ns ++ [c]) none = .ok (none :: (if t.squeeze then lens else lens ++ [t.channels]).map some) := by
    unfold computeConv
    rw [e1, List.dropLast_concat, h2]
    exact apply_plain ht _ _ _
  unfold Builds
  rw [e1, e2]
  refine construct_known ?_
  have hpos := eachAxis_pos h3
  split
  · exact hpos
  · intro d hd
    rcases List.mem_append.mp hd with h | h
    · exact hpos d h
    · rw [List.mem_singleton.mp h]; exact channels_pos t

example : ∃ lens, EachAxis (Windows .valid) [10, 9] [⟨3, 2, 1⟩, ⟨3, 2, 1⟩] lens ∧
    Builds (announceConv .valid [⟨3, 2, 1⟩, ⟨3, 2, 1⟩] ⟨8, false⟩ [10, 9, 3]) (computeConv .valid [⟨3, 2, 1⟩, ⟨3, 2, 1⟩] ⟨8, false⟩ [10, 9, 3]) (lens ++ [8]) :=
  conv_builds (ns := [10, 9]) (as := [⟨3, 2, 1⟩, ⟨3, 2, 1⟩]) (t := ⟨8, false⟩) (.inr rfl) (by simp [Axis.Valid]) rfl ⟨⟨by decide, fun _ => by decide⟩, ⟨by decide, fun _ => by decide⟩, trivial⟩ 3
example : construct (announceConv .valid [⟨3, 2, 1⟩, ⟨3, 2, 1⟩] ⟨8, false⟩ [10, 9, 3]) (computeConv .valid [⟨3, 2, 1⟩, ⟨3, 2, 1⟩] ⟨8, false⟩ [10, 9, 3] none) =
    .ok [4, 4, 8] := rfl

/-- The activation `crelu` cannot be used, since it doubles the last axis. -/
theorem crelu_fails {as : List Axis} (has : as ≠ []) (p : Padding) {t : Trans} (ht : t.crelu = true) (x a : List Nat) :
    ¬ Builds (announceConv p as t x) (computeConv p as t x) a := by
  intro h
  obtain ⟨l, s, h1, h2, -⟩ := construct_ok h
  unfold computeConv at h2
  rw [h1] at h2
  dsimp only at h2
  split at h2
  · cases h2
  · unfold Trans.apply at h2
    dsimp only at h2
    rw [if_pos ht] at h2
    exact applyCrelu_fails (announceConv_ne has h1) _ _ h2

example : construct (announceConv .same [⟨3, 1, 1⟩] ⟨8, true⟩ [10, 3]) (computeConv .same [⟨3, 1, 1⟩] ⟨8, true⟩ [10, 3] none) = .error .mismatch := rfl

/-- Nor with a dense layer, except one without output axis: that doubles the batch. -/
theorem dense_crelu_violation : Builds (announceConv .same [] ⟨0, true⟩ [3]) (computeConv .same [] ⟨0, true⟩ [3]) [] ∧
    computeConv .same [] ⟨0, true⟩ [3] (some 5) = .ok [some 10] := ⟨rfl, rfl⟩

/-- All other dense layers do what they announce. -/
theorem dense_partial {t : Trans} (h : t.size ≠ 0 ∨ t.crelu = false) (x : List Nat) : Agrees (announceConv .same [] t x) (computeConv .same [] t x) := by
  refine agrees_of_known fun s hs => ?_
  unfold computeConv at hs ⊢
  split at hs
  · cases hs
  · rename_i a ha
    split at hs
    · cases hs
    · rename_i lens hl
      refine ⟨_, fun b => apply_known ?_ hs b⟩
      rcases h with h | h
      · left
        unfold announceConv at ha
        split at ha
        · cases ha
        · split at ha
          · cases ha
          · rw [if_neg (show ¬ t.squeeze from h)] at ha
            cases ha
            simp
      · exact .inr h

example : construct (announceConv .same [] ⟨7, false⟩ [3]) (computeConv .same [] ⟨7, false⟩ [3] none) = .ok [7] := rfl

/-! ## Local pooling -/

theorem pool (p : Padding) (as : List Axis) (x : List Nat) : Agrees (announcePool p as x) (computePool p as x) := by
  refine agrees_of_known fun s hs => ?_
  unfold computePool at hs ⊢
  split at hs
  · cases hs
  · rename_i c hc
    split at hs
    · cases hs
    · rename_i lens hl
      exact ⟨lens ++ [c], fun b => by simp⟩

/-- With the paddings `same` and `valid` the layer can be built if the inputs are long enough. -/
theorem pool_builds {p : Padding} (hp : p = .same ∨ p = .valid) {as : List Axis} (ha : ∀ a ∈ as, a.Valid ∧ a.dilation = 1) {ns : List Nat}
    (hn : AllLong p ns as) {c : Nat} (hc : 0 < c) :
    ∃ lens, EachAxis (Windows p) ns as lens ∧ Builds (announcePool p as (ns ++ [c])) (computePool p as (ns ++ [c])) (lens ++ [c]) := by
  obtain ⟨lens, h1, h2, h3⟩ := perAxis_ok (f := poolLength p) (g := fun n a => windowed p n { a with dilation := 1 }) (P := Windows p)
    (fun n a hm hl => pool_axis hp (ha a hm).1 (ha a hm).2 hl) hn
  refine ⟨lens, h3, ?_⟩
  have e1 : announcePool p as (ns ++ [c]) = .ok ((lens ++ [c]).map Int.ofNat) := by
    unfold announcePool
    rw [List.getLast?_concat]
    dsimp only
    rw [List.dropLast_concat, h1]
    simp
  have e2 : computePool p as (ns ++ [c]) none = .ok (none :: (lens ++ [c]).map some) := by
    unfold computePool
    rw [List.getLast?_concat]
    dsimp only
    rw [List.dropLast_concat, h2]
    simp
  unfold Builds
  rw [e1, e2]
  refine construct_known fun d hd => ?_
  rcases List.mem_append.mp hd with h | h
  · exact eachAxis_pos h3 d h
  · rw [List.mem_singleton.mp h]; exact hc

example : construct (announcePool .valid [⟨3, 2, 1⟩] [10, 3]) (computePool .valid [⟨3, 2, 1⟩] [10, 3] none) = .ok [4, 3] := rfl

/-- The padding is not checked: in upper case the shape is announced unchanged, so that the layer can be built only if it is, for instance with stride 1. -/
theorem pool_upper {as : List Axis} {x a : List Nat} (h : Builds (announcePool .upperSame as x) (computePool .upperSame as x) a) : a = x := by
  obtain ⟨l, s, h1, -, -, rfl, -⟩ := construct_ok h
  unfold announcePool at h1
  split at h1
  · cases h1
  · rename_i c hc
    split at h1
    · cases h1
    · rename_i lens hl
      cases h1
      have key : ∀ (ns : List Nat) (as : List Axis) (ls : List Int), perAxis (poolLength .upperSame) ns as = .ok ls → ls.map Int.toNat = ns := by
        intro ns
        induction ns with
        | nil => intro as ls h; cases as <;> cases h; rfl
        | cons n ns ih =>
          intro as ls h
          cases as with
          | nil => cases h
          | cons b as =>
            rw [perAxis] at h
            dsimp only [poolLength] at h
            split at h
            · rename_i h1 h2
              cases h1; cases h
              rw [List.map_cons, ih _ _ h2]; rfl
            · cases h
            · cases h
      rw [List.map_append, key _ _ _ hl]
      obtain ⟨y, rfl⟩ := List.getLast?_eq_some_iff.mp hc
      simp

example : construct (announcePool .upperSame [⟨3, 1, 1⟩] [10, 3]) (computePool .upperSame [⟨3, 1, 1⟩] [10, 3] none) = .ok [10, 3] := rfl
example : construct (announcePool .upperSame [⟨3, 2, 1⟩] [10, 3]) (computePool .upperSame [⟨3, 2, 1⟩] [10, 3] none) = .error .mismatch := rfl

/-! ## Transposed convolution -/

/-- If the operation succeeds, the shape is the announced one. -/
theorem transpose_partial {as : List Axis} (has : as ≠ []) (p : Padding) (t : Trans) (given : Option (List Int)) (x : List Nat) :
    AgreesIfOk (announceTranspose p as t given x) (computeTranspose p as t given x) := by
  intro a ha n s hs
  obtain ⟨l, s', h1, h2, hpos, rfl, h5⟩ := construct_ok ha
  unfold computeTranspose at hs
  rw [h1] at hs
  unfold announceTranspose at h1
  cases ho : transposeLens p as given x with
  | error e => rw [ho] at h1; cases h1
  | ok out =>
    rw [ho] at h1 hs
    dsimp only at h1 hs
    injection h1 with h1
    by_cases hcond : x.getLast? = some t.channels ∧ transposes p (out.map Int.toNat) as x.dropLast
    · rw [if_pos hcond] at hs
      have hlen : out ≠ [] := by
        rintro rfl
        have := hcond.2
        unfold transposes at this
        cases as with
        | nil => exact has rfl
        | cons => cases this
      have hl : l ≠ [] := by
        rw [← h1]
        split
        · exact hlen
        · simp
      rw [show (fun d : Int => some d.toNat) = some ∘ Int.toNat from rfl, ← List.map_map] at hs
      unfold Trans.apply at hs
      dsimp only at hs
      by_cases hc : t.crelu = true
      · rw [if_pos hc] at hs
        exact absurd hs (applyCrelu_fails hl _ _)
      · rw [if_neg hc] at hs
        injection hs with hs
        rw [← hs, ← h1]
        split
        · rw [List.dropLast_concat]
        · simp
    · rw [if_neg hcond] at hs; cases hs

/-- With the usual paddings, no `crelu` and no output shape given, the layer can be built, and with as many inputs as outputs at each position it can be
used; convolving its output gives the shape of its input. -/
theorem transpose_builds {p : Padding} (hp : p = .same ∨ p = .valid) {as : List Axis} (ha : ∀ a ∈ as, a.Valid) {t : Trans} (ht : t.crelu = false)
    {ns : List Nat} (hn : ∀ n ∈ ns, 0 < n) (hl : ns.length = as.length) (c : Nat) :
    ∃ lens a, EachAxis (Windows p) lens as ns ∧ EachAxis (fun len a n => len = fullLength p n a) lens as ns ∧
      a = (if t.size = 0 then lens else lens ++ [(max t.size 1).toNat]) ∧
      Builds (announceTranspose p as t none (ns ++ [c])) (computeTranspose p as t none (ns ++ [c])) a ∧
      (c = (max t.size 1).toNat → ∀ n, computeTranspose p as t none (ns ++ [c]) (some n) = .ok (some n :: a.map some)) := by
  obtain ⟨lens, h1, h2, h3, h4, h5⟩ := deconv_axes hp ha hn hl
  refine ⟨lens, _, h3, h5, rfl, ?_⟩
  have e0 : transposeLens p as none (ns ++ [c]) = .ok (lens.map Int.ofNat) := by
    unfold transposeLens
    rw [if_neg (by simp), if_neg (by simp), List.dropLast_concat, h1]
    rfl
  have e1 : announceTranspose p as t none (ns ++ [c]) = .ok ((if t.squeeze then lens else lens ++ [t.channels]).map Int.ofNat) := by
    unfold announceTranspose
    rw [e0]
    dsimp only
    split <;> simp
  have e2 : c = t.channels → ∀ n, computeTranspose p as t none (ns ++ [c]) (some n) =
      .ok (some n :: (if t.squeeze then lens else lens ++ [t.channels]).map some) := by
    intro hc n
    unfold computeTranspose
    rw [e0, e1]
    dsimp only
    rw [List.getLast?_concat, List.dropLast_concat, toNat_ofNat, if_pos ⟨by rw [hc], h2⟩,
      show (fun d : Int => some d.toNat) = some ∘ Int.toNat from rfl, ← List.map_map, toNat_ofNat]
    exact apply_plain ht _ _ _
  have e3 : computeTranspose p as t none (ns ++ [c]) none =
      .ok (none :: (if t.squeeze then lens else lens ++ [t.channels]).map fun _ => none) := by
    unfold computeTranspose
    rw [e0, e1]
    dsimp only
    unfold Trans.apply
    dsimp only
    rw [if_neg (by rw [ht]; decide)]
    split
    · rw [List.dropLast_concat]; simp [Function.comp_def]
    · simp [Function.comp_def]
  refine ⟨?_, e2⟩
  unfold Builds
  rw [e1, e3]
  have hpos : ∀ d ∈ (if t.squeeze then lens else lens ++ [t.channels]), 0 < d := by
    split
    · exact h4
    · intro d hd
      rcases List.mem_append.mp hd with h | h
      · exact h4 d h
      · rw [List.mem_singleton.mp h]; exact channels_pos t
  rw [show (if t.size = 0 then lens else lens ++ [(max t.size 1).toNat]) = (if t.squeeze then lens else lens ++ [t.channels]) from rfl]
  generalize (if t.squeeze then lens else lens ++ [t.channels]) = K at hpos
  unfold construct
  dsimp only
  rw [if_neg, if_pos, toNat_ofNat]
  · rw [compatible]
    clear hpos
    induction K with
    | nil => rfl
    | cons d K ih => simpa [compatible] using ih
  · intro h
    obtain ⟨y, hy, h0⟩ := List.any_eq_true.mp h
    obtain ⟨d, hd, rfl⟩ := List.mem_map.mp hy
    have := hpos d hd
    simp only [decide_eq_true_eq] at h0
    have : (0 : Int) < Int.ofNat d := Int.ofNat_lt.mpr this
    omega

example : ∀ n, computeTranspose .valid [⟨3, 2, 1⟩] ⟨4, false⟩ none [5, 4] (some n) = .ok [some n, some 11, some 4] := fun _ => rfl

/-- With any other number of outputs the layer can be built, but never used: the weights have input and output swapped. -/
theorem transpose_channels_violation {p : Padding} {as : List Axis} {t : Trans} {given : Option (List Int)} {x : List Nat}
    (h : x.getLast? ≠ some (max t.size 1).toNat) (n : Nat) (s : Shape) : computeTranspose p as t given x (some n) ≠ .ok s := by
  intro hs
  unfold computeTranspose at hs
  split at hs
  · cases hs
  · cases hs
  · dsimp only at hs
    rw [if_neg fun hc => h hc.1] at hs
    cases hs

example : construct (announceTranspose .same [⟨3, 2, 1⟩] ⟨4, false⟩ none [5, 3]) (computeTranspose .same [⟨3, 2, 1⟩] ⟨4, false⟩ none [5, 3] none) = .ok [10, 4] ∧
    computeTranspose .same [⟨3, 2, 1⟩] ⟨4, false⟩ none [5, 3] (some 1) = .error .operation := ⟨rfl, rfl⟩

/-- The argument `output_width` of the one-dimensional layer cannot be used. -/
theorem output_width_fails (p : Padding) (b : Axis) (t : Trans) (width : Int) (x a : List Nat) :
    ¬ Builds (announceTranspose p [b] t (some [width]) x) (computeTranspose p [b] t (some [width]) x) a := by
  intro h
  obtain ⟨l, s, h1, -⟩ := construct_ok h
  unfold announceTranspose transposeLens at h1
  by_cases hx : x = []
  · rw [if_pos hx] at h1; cases h1
  · rw [if_neg hx, if_pos ⟨rfl, rfl⟩] at h1; cases h1

/-! ## Retrieve -/

/-- Retrieved tensors, joined along any axis but that of the batch; for sums and products along any axis. -/
theorem retrieve_partial {g : Aggregation} {axis : Int} {shapes : List (List Nat)}
    (h : g = .concat ∨ g = .stack → ∀ s0, shapes.head? = some s0 → ¬ OnBatch g axis s0.length) :
    Agrees (announceRetrieve g axis shapes) (computeRetrieve g axis shapes) := by
  refine agrees_of_known fun s hs => ?_
  match shapes, h, hs with
  | [], h, hs => cases g <;> cases hs
  | [s0], h, hs => exact ⟨s0, fun b => rfl⟩
  | s0 :: s1 :: rest, h, hs =>
    cases hk : normAxis (axis + 1) (s0.length + if g = .concat then 1 else 2) with
    | error e =>
      exfalso
      have hl : (none :: s0.map some : Shape).length = s0.length + 1 := by simp
      unfold computeRetrieve at hs
      cases g <;> dsimp only at hs <;> rw [List.map_cons] at hs
      · rw [tfConcat, hl, show normAxis (axis + 1) (s0.length + 1) = .error e from hk] at hs; cases hs
      · rw [tfStack, hl, show normAxis (axis + 1) (s0.length + 1 + 1) = .error e from hk] at hs; cases hs
      · rw [tfStack, hl, show normAxis (axis + 1) (s0.length + 1 + 1) = .error e from hk] at hs; cases hs
      · rw [tfStack, hl, show normAxis (axis + 1) (s0.length + 1 + 1) = .error e from hk] at hs; cases hs
    | ok k =>
      cases k with
      | succ k =>
        simp only [computeRetrieve_axis hk] at hs ⊢
        exact computeRetrieve_known g k _ s hs
      | zero =>
        have hb : OnBatch g axis s0.length := by
          unfold normAxis at hk
          dsimp only at hk
          unfold OnBatch
          generalize hr : (s0.length + if g = Aggregation.concat then 1 else 2) = r at hk
          by_cases h0 : axis + 1 < 0
          · rw [if_pos h0] at hk
            right
            by_cases hc : axis + 1 + (r : Int) < 0 ∨ (r : Int) ≤ axis + 1 + r
            · rw [if_pos hc] at hk; cases hk
            · rw [if_neg hc] at hk
              injection hk with hk
              split at hr
              · rename_i hg; rw [if_pos hg]; omega
              · rename_i hg; rw [if_neg hg]; omega
          · rw [if_neg h0] at hk
            left
            by_cases hc : axis + 1 < 0 ∨ (r : Int) ≤ axis + 1
            · rw [if_pos hc] at hk; cases hk
            · rw [if_neg hc] at hk
              injection hk with hk
              omega
        have hg : g = .sum ∨ g = .product := by
          cases g
          · exact absurd hb (h (.inl rfl) s0 rfl)
          · exact .inr rfl
          · exact absurd hb (h (.inr rfl) s0 rfl)
          · exact .inl rfl
        have hk' : normAxis (axis + 1) (s0.length + 2) = .ok 0 := by
          rcases hg with rfl | rfl <;> exact hk
        exact ⟨s0, computeRetrieve_batch hg hk' s hs⟩

example : construct (announceRetrieve .concat 0 [[2, 3], [5, 3]]) (computeRetrieve .concat 0 [[2, 3], [5, 3]] none) = .ok [7, 3] := rfl

theorem retrieve_one (g : Aggregation) (axis : Int) {s : List Nat} (hs : ∀ d ∈ s, 0 < d) :
    Builds (announceRetrieve g axis [s]) (computeRetrieve g axis [s]) s := construct_known hs

example : Builds (announceRetrieve .stack 5 [[2, 3]]) (computeRetrieve .stack 5 [[2, 3]]) [2, 3] := retrieve_one _ _ (by decide)

/-- Tensors that differ at most along the axis can be concatenated. -/
theorem concat_builds {pre post ds : List Nat} (h2 : 2 ≤ ds.length) (hpre : ∀ d ∈ pre, 0 < d) (hpost : ∀ d ∈ post, 0 < d) (hds : ∀ d ∈ ds, 0 < d) :
    Builds (announceRetrieve .concat pre.length (ds.map fun d => pre ++ d :: post)) (computeRetrieve .concat pre.length (ds.map fun d => pre ++ d :: post))
      (pre ++ ds.sum :: post) := by
  match ds, h2, hds with
  | d0 :: d1 :: rest, _, hds =>
    have e1 : announceRetrieve .concat pre.length ((d0 :: d1 :: rest).map fun d => pre ++ d :: post) =
        .ok ((pre ++ (d0 :: d1 :: rest).sum :: post).map Int.ofNat) := by
      rw [← concatShape_eq]
      simp only [List.map_cons, announceRetrieve]
      rw [if_pos]
      simp only [List.all_cons, agreeBut_eq, Bool.true_and, List.all_map, List.all_eq_true, Function.comp_apply, implies_true]
    have e2 : computeRetrieve .concat pre.length ((d0 :: d1 :: rest).map fun d => pre ++ d :: post) none =
        .ok (none :: (pre ++ (d0 :: d1 :: rest).sum :: post).map some) := by
      have : computeRetrieve .concat pre.length ((d0 :: d1 :: rest).map fun d => pre ++ d :: post) none =
          tfConcat ((pre.length : Int) + 1) (((pre ++ d0 :: post) :: (d1 :: rest).map fun d => pre ++ d :: post).map fun s => none :: s.map some) := rfl
      rw [this, tfConcat_nat, if_pos (by simp), if_pos]
      · refine congrArg (fun l : List Nat => Except.ok (none :: l.map some)) ?_
        rw [List.set_append_right _ _ (Nat.le_refl _), Nat.sub_self, List.set_cons_zero]
        congr 2
        rw [← List.map_cons (f := fun d => pre ++ d :: post), List.map_map]
        congr 1
        refine (List.map_congr_left fun d _ => ?_).trans (List.map_id _)
        simp
      · rw [← List.map_cons (f := fun d => pre ++ d :: post), List.all_map, List.all_eq_true]
        intro d _
        simp [List.eraseIdx_append_of_length_le]
    unfold Builds
    rw [e1, e2]
    refine construct_known fun d hd => ?_
    rcases List.mem_append.mp hd with h | h
    · exact hpre d h
    · rcases List.mem_cons.mp h with h | h
      · rw [h, List.sum_cons]
        have := hds d0 (by simp)
        omega
      · exact hpost d h

example : Builds (announceRetrieve .concat 1 [[2, 3], [2, 4]]) (computeRetrieve .concat 1 [[2, 3], [2, 4]]) [2, 7] :=
  concat_builds (pre := [2]) (post := []) (ds := [3, 4]) (by decide) (by decide) (by decide) (by decide)

/-- Tensors of the same shape can be stacked. -/
theorem stack_builds {pre post : List Nat} (hpre : ∀ d ∈ pre, 0 < d) (hpost : ∀ d ∈ post, 0 < d) (m : Nat) :
    Builds (announceRetrieve .stack pre.length (List.replicate (m + 2) (pre ++ post))) (computeRetrieve .stack pre.length (List.replicate (m + 2) (pre ++ post)))
      (pre ++ (m + 2) :: post) := by
  have e1 : announceRetrieve .stack pre.length (List.replicate (m + 2) (pre ++ post)) = .ok ((pre ++ (m + 2) :: post).map Int.ofNat) := by
    rw [List.replicate_succ, List.replicate_succ]
    simp only [announceRetrieve]
    rw [if_pos]
    · simp only [List.length_cons, List.length_replicate, stackShape_eq]; rfl
    · simp
  have e2 : computeRetrieve .stack pre.length (List.replicate (m + 2) (pre ++ post)) none = .ok (none :: (pre ++ (m + 2) :: post).map some) := by
    have : computeRetrieve .stack pre.length (List.replicate (m + 2) (pre ++ post)) none =
        tfStack ((pre.length : Int) + 1) (((pre ++ post) :: List.replicate (m + 1) (pre ++ post)).map fun s => none :: s.map some) := rfl
    rw [this, tfStack_nat, if_pos (by simp), if_pos (by simp), List.take_left, List.drop_left, List.length_replicate]
  unfold Builds
  rw [e1, e2]
  refine construct_known fun d hd => ?_
  rcases List.mem_append.mp hd with h | h
  · exact hpre d h
  · rcases List.mem_cons.mp h with h | h
    · omega
    · exact hpost d h

example : Builds (announceRetrieve .stack 1 [[2, 3], [2, 3]]) (computeRetrieve .stack 1 [[2, 3], [2, 3]]) [2, 2, 3] :=
  stack_builds (pre := [2]) (post := [3]) (by decide) (by decide) 0

/-- Tensors of the same shape can be added or multiplied, along any axis including a negative one and the batch axis. -/
theorem sum_builds {g : Aggregation} (hg : g = .sum ∨ g = .product) {s : List Nat} (hs : ∀ d ∈ s, 0 < d) {axis : Int} (h1 : -(s.length + 3) ≤ axis)
    (h2 : axis ≤ s.length) (m : Nat) :
    Builds (announceRetrieve g axis (List.replicate (m + 2) s)) (computeRetrieve g axis (List.replicate (m + 2) s)) s := by
  have e1 : announceRetrieve g axis (List.replicate (m + 2) s) = .ok (s.map Int.ofNat) := by
    have hb : (s :: s :: List.replicate m s).all (broadcast s) = true := by
      rw [← List.replicate_succ, ← List.replicate_succ, List.all_replicate, broadcast_self]; simp
    have hm : maxShape s (s :: s :: List.replicate m s) = s := by
      rw [← List.replicate_succ, ← List.replicate_succ]; exact maxShape_eq s (m + 1)
    rw [List.replicate_succ, List.replicate_succ]
    rcases hg with rfl | rfl <;> simp only [announceRetrieve] <;> rw [if_pos hb, hm]
  have e2 : computeRetrieve g axis (List.replicate (m + 2) s) none = .ok (none :: s.map some) := by
    obtain ⟨k, hk⟩ : ∃ k, normAxis (axis + 1) (s.length + 2) = .ok k := by
      unfold normAxis
      dsimp only
      rw [if_neg (by split <;> omega)]
      exact ⟨_, rfl⟩
    cases k with
    | zero => rw [List.replicate_succ, List.replicate_succ, computeRetrieve_batch_eq hg hk, if_pos (by simp)]
    | succ k =>
      have hk' : normAxis (axis + 1) (s.length + if g = .concat then 1 else 2) = .ok (k + 1) := by
        rw [if_neg (by rcases hg with rfl | rfl <;> decide)]; exact hk
      have hlt : k ≤ s.length := by have := normAxis_lt hk; omega
      rw [List.replicate_succ, List.replicate_succ, computeRetrieve_axis hk']
      have : computeRetrieve g k (s :: s :: List.replicate m s) none =
          match tfStack ((k : Int) + 1) ((s :: s :: List.replicate m s).map fun s => none :: s.map some) with
          | .error e => .error e
          | .ok r => tfReduce ((k : Int) + 1) r := by rcases hg with rfl | rfl <;> rfl
      rw [this, tfStack_nat, if_pos hlt, if_pos (by simp)]
      exact tfReduce_stacked hlt none
  unfold Builds
  rw [e1, e2]
  exact construct_known hs

example : Builds (announceRetrieve .sum 0 [[2, 3], [2, 3]]) (computeRetrieve .sum 0 [[2, 3], [2, 3]]) [2, 3] := sum_builds (.inl rfl) (by decide) (by decide) (by decide) 0

/-- Tensors of different shapes cannot, although the announced shape allows for broadcasting. -/
theorem broadcast_fails {g : Aggregation} (hg : g = .sum ∨ g = .product) (axis : Nat) {s0 s1 : List Nat} {rest : List (List Nat)} {s : List Nat}
    (hm : s ∈ s1 :: rest) (hne : s ≠ s0) (a : List Nat) :
    ¬ Builds (announceRetrieve g axis (s0 :: s1 :: rest)) (computeRetrieve g axis (s0 :: s1 :: rest)) a := by
  intro h
  obtain ⟨l, r, -, h2, -⟩ := construct_ok h
  have : computeRetrieve g axis (s0 :: s1 :: rest) none =
      match tfStack ((axis : Int) + 1) ((s0 :: s1 :: rest).map fun s => none :: s.map some) with
      | .error e => .error e
      | .ok r => tfReduce ((axis : Int) + 1) r := by rcases hg with rfl | rfl <;> rfl
  have hn : ¬ (s1 :: rest).all (· == s0) = true := fun hall => hne (by simpa using List.all_eq_true.mp hall s hm)
  rw [this, tfStack_nat, if_neg hn] at h2
  by_cases hl : axis ≤ s0.length
  · rw [if_pos hl] at h2; cases h2
  · rw [if_neg hl] at h2; cases h2

/-- Such a layer is announced with the larger shape, and fails with an error of TensorFlow. -/
theorem broadcast_announced {g : Aggregation} (hg : g = .sum ∨ g = .product) {d : Nat} (h : 1 < d) :
    announceRetrieve g 0 [[d], [1]] = .ok [(d : Int)] ∧ announceRetrieve g 0 [[1], [d]] = .ok [(d : Int)] ∧
      ∀ b, computeRetrieve g 0 [[d], [1]] b = .error .operation ∧ computeRetrieve g 0 [[1], [d]] b = .error .operation := by
  have h1 : max d 1 = d := by omega
  have h2 : max 1 d = d := by omega
  have h3 : d ≠ 1 := by omega
  refine ⟨?_, ?_, fun b => ⟨?_, ?_⟩⟩ <;> rcases hg with rfl | rfl <;>
    simp [announceRetrieve, computeRetrieve, broadcast, maxShape, tfStack, normAxis, List.range_succ, h1, h2, h3, h3.symm]

example : announceRetrieve .sum 0 [[2, 3], [1, 3]] = .ok [2, 3] ∧ computeRetrieve .sum 0 [[2, 3], [1, 3]] none = .error .operation := ⟨rfl, rfl⟩

/-- Concatenation along axis −1 concatenates batches: the layer can be built with the announced shape of one tensor, and multiplies the batch. -/
theorem concat_axis_violation {s : List Nat} (hs : ∀ d ∈ s, 0 < d) (m : Nat) :
    Builds (announceRetrieve .concat (-1) (List.replicate (m + 2) s)) (computeRetrieve .concat (-1) (List.replicate (m + 2) s)) s ∧
      ∀ n, computeRetrieve .concat (-1) (List.replicate (m + 2) s) (some n) = .ok (some ((m + 2) * n) :: s.map some) := by
  have key : ∀ b : Dim, computeRetrieve .concat (-1) (List.replicate (m + 2) s) b = .ok (addDims (List.replicate (m + 2) b) :: s.map some) := by
    intro b
    have : computeRetrieve .concat (-1) (List.replicate (m + 2) s) b =
        tfConcat 0 ((b :: s.map some) :: (List.replicate (m + 1) s).map fun s => b :: s.map some) := rfl
    rw [this, tfConcat, show normAxis 0 (b :: s.map some).length = .ok 0 from normAxis_nat (k := 0) (by simp)]
    dsimp only
    rw [List.map_replicate, ← List.replicate_succ, if_pos (by simp), List.map_replicate]
    rfl
  constructor
  · have e1 : announceRetrieve .concat (-1) (List.replicate (m + 2) s) = .ok (s.map Int.ofNat) := by
      rw [List.replicate_succ, List.replicate_succ]
      simp only [announceRetrieve]
      rw [if_pos]
      · congr 2
        refine List.ext_getElem (by simp [concatShape]) fun n h1 h2 => ?_
        simp only [concatShape, List.getElem_map, List.getElem_range]
        rw [if_neg (by omega), List.getElem?_eq_getElem h2]; rfl
      · rw [← List.replicate_succ, ← List.replicate_succ, List.all_replicate]
        simp [agreeBut]
    unfold Builds
    rw [e1, key]
    rw [show addDims (List.replicate (m + 2) none) = none by rw [List.replicate_succ, addDims.eq_def]]
    exact construct_known hs
  · intro n
    rw [key, show List.replicate (m + 2) (some n) = (List.replicate (m + 2) n).map some by simp, addDims_known]
    simp

example : computeRetrieve .concat (-1) [[3], [3]] (some 5) = .ok [some 10, some 3] := rfl

/-- Stacking along axis −1 does so before the batch, undetected since the batch size is not known when the graph is built. -/
theorem stack_axis_violation {s : List Nat} {d : Nat} (hs : ∀ e ∈ s ++ [d], 0 < e) (m : Nat) :
    Builds (announceRetrieve .stack (-1) (List.replicate (m + 2) (s ++ [d]))) (computeRetrieve .stack (-1) (List.replicate (m + 2) (s ++ [d])))
      (d :: (s ++ [d])) ∧
      ∀ n, computeRetrieve .stack (-1) (List.replicate (m + 2) (s ++ [d])) (some n) = .ok (some (m + 2) :: some n :: (s ++ [d]).map some) := by
  have key : ∀ b : Dim, computeRetrieve .stack (-1) (List.replicate (m + 2) (s ++ [d])) b = .ok (some (m + 2) :: b :: (s ++ [d]).map some) := by
    intro b
    have : computeRetrieve .stack (-1) (List.replicate (m + 2) (s ++ [d])) b =
        tfStack 0 ((b :: (s ++ [d]).map some) :: (List.replicate (m + 1) (s ++ [d])).map fun s => b :: s.map some) := rfl
    rw [this, tfStack, show normAxis 0 ((b :: (s ++ [d]).map some).length + 1) = .ok 0 from normAxis_nat (k := 0) (by simp)]
    dsimp only
    rw [if_pos (by simp)]
    simp
  refine ⟨?_, fun n => key _⟩
  have e1 : announceRetrieve .stack (-1) (List.replicate (m + 2) (s ++ [d])) = .ok ((d :: (s ++ [d])).map Int.ofNat) := by
    rw [List.replicate_succ, List.replicate_succ]
    simp only [announceRetrieve]
    rw [if_pos (by simp), stackShape_batch]
    rfl
  unfold Builds
  rw [e1, key]
  unfold construct
  dsimp only
  rw [if_neg, if_pos, toNat_ofNat]
  · simp only [List.map_cons, compatible]
    rw [show (List.map (fun x : Int => some x.toNat) (List.map Int.ofNat (s ++ [d]))) = (s ++ [d]).map some by simp [Function.comp_def]]
    exact compatible_known.mpr rfl
  · intro h
    obtain ⟨y, hy, h0⟩ := List.any_eq_true.mp h
    obtain ⟨e, he, rfl⟩ := List.mem_map.mp hy
    have : 0 < e := by
      rcases List.mem_cons.mp he with rfl | he
      · exact hs _ (by simp)
      · exact hs _ he
    simp only [decide_eq_true_eq] at h0
    have : (0 : Int) < Int.ofNat e := Int.ofNat_lt.mpr this
    omega

example : Builds (announceRetrieve .stack (-1) [[3, 4], [3, 4]]) (computeRetrieve .stack (-1) [[3, 4], [3, 4]]) [4, 3, 4] :=
  (stack_axis_violation (s := [3]) (d := 4) (by decide) 0).1

/-! Shapes that do not fit are rejected when the layer is created, before any TensorFlow operation. -/

/-- Concatenation: the same rank, and the same size along every other axis. -/
theorem concat_rejects {axis : Int} {s0 s1 s : List Nat} {rest : List (List Nat)} (hm : s ∈ s1 :: rest)
    (h : s.length ≠ s0.length ∨ ∃ n : Nat, (n : Int) ≠ axis ∧ s[n]? ≠ s0[n]?) : announceRetrieve .concat axis (s0 :: s1 :: rest) = .error .rejected := by
  simp only [announceRetrieve]
  rw [if_neg]
  intro hall
  have := List.all_eq_true.mp hall s (List.mem_cons_of_mem _ hm)
  unfold agreeBut at this
  rw [Bool.and_eq_true, beq_iff_eq, List.all_eq_true] at this
  rcases h with h | ⟨n, h1, h2⟩
  · exact h this.1
  · by_cases hn : n < s.length
    · have := this.2 n (List.mem_range.mpr hn)
      rw [Bool.or_eq_true, beq_iff_eq, beq_iff_eq] at this
      exact this.elim h1 h2
    · exact h2 (by rw [List.getElem?_eq_none (by omega), List.getElem?_eq_none (by omega)])

example : announceRetrieve .concat 0 [[2, 3], [2, 4]] = .error .rejected := concat_rejects (s := [2, 4]) (by simp) (.inr ⟨1, by decide, by decide⟩)

/-- Stacking: the same shape. -/
theorem stack_rejects {axis : Int} {s0 s1 s : List Nat} {rest : List (List Nat)} (hm : s ∈ s1 :: rest) (h : s ≠ s0) :
    announceRetrieve .stack axis (s0 :: s1 :: rest) = .error .rejected := by
  simp only [announceRetrieve]
  rw [if_neg]
  intro hall
  exact h (by simpa using List.all_eq_true.mp hall s (List.mem_cons_of_mem _ hm))

example : announceRetrieve .stack 0 [[2, 3], [2, 4]] = .error .rejected := stack_rejects (s := [2, 4]) (by simp) (by decide)

/-- Sum and product: the same rank, and along every axis the same size as the first tensor unless one of them is 1. -/
theorem sum_rejects {g : Aggregation} (hg : g = .sum ∨ g = .product) {axis : Int} {s0 s1 s : List Nat} {rest : List (List Nat)} (hm : s ∈ s1 :: rest)
    (h : s.length ≠ s0.length ∨ ∃ n : Nat, s[n]? ≠ s0[n]? ∧ s[n]? ≠ some 1 ∧ s0[n]? ≠ some 1) :
    announceRetrieve g axis (s0 :: s1 :: rest) = .error .rejected := by
  have hb : ¬ (s0 :: s1 :: rest).all (broadcast s0) = true := by
    intro hall
    have := List.all_eq_true.mp hall s (List.mem_cons_of_mem _ hm)
    unfold broadcast at this
    rw [Bool.and_eq_true, beq_iff_eq, List.all_eq_true] at this
    rcases h with h | ⟨n, h1, h2, h3⟩
    · exact h this.1
    · by_cases hn : n < s.length
      · have := this.2 n (List.mem_range.mpr hn)
        rw [Bool.or_eq_true, Bool.or_eq_true, beq_iff_eq, beq_iff_eq, beq_iff_eq] at this
        exact this.elim (fun h => h.elim h1 h2) h3
      · exact h1 (by rw [List.getElem?_eq_none (by omega), List.getElem?_eq_none (by omega)])
  rcases hg with rfl | rfl <;> simp only [announceRetrieve] <;> rw [if_neg hb]

example : announceRetrieve .sum 0 [[2, 3], [2, 4]] = .error .rejected := sum_rejects (.inl rfl) (s := [2, 4]) (by simp) (.inr ⟨1, by decide, by decide, by decide⟩)

end Verif.Props.Shape
