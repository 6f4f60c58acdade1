import Verif.Policy.Bounded
import Verif.Policy.Categorical

/-! # One action component lies in its action space -/

namespace Verif.Policy

variable {K : Type} [Field K] [LinearOrder K] [IsStrictOrderedRing K]

theorem component_in_space {f : Fns K} (hf : Laws f) (t : K) (deterministic : Bool)
    (c : Component K) (s : Space K) (hs : s.Valid) (hd : c.dist.For s) (hx : c.outputs.For s)
    (hz : c.noise.For c.dist c.outputs) (hm : c.Moderate) :
    InSpace s (if deterministic = true then c.dist.mode f c.outputs
      else c.dist.sample f c.outputs t c.noise) := by
  obtain ⟨name, dist, x, z⟩ := c
  dsimp only at hd hx hz hm ⊢
  cases dist with
  | bernoulli =>
    cases s with
    | bool => split <;> trivial
    | int => exact hd.elim
    | float => exact hd.elim
  | categorical w =>
    cases s with
    | bool => exact hd.elim
    | float => exact hd.elim
    | int num mask =>
      obtain ⟨hlen, hmask⟩ := hx
      obtain ⟨hpos, hvm⟩ := hs
      obtain ⟨hzl, hzu⟩ := hz
      have hne : x.values ≠ [] := by
        intro h
        rw [h] at hlen
        simp at hlen
        omega
      have hml : ∀ m, x.mask = some m → m.length = x.values.length := by
        intro m hm'
        rw [hlen]
        exact (hvm m (by rw [← hmask]; exact hm')).1
      generalize hraw : (if w = true then some x.first else none) = raw
      have hav : (categoricalParams f raw x.mask x.values).actionValues.length = num := by
        rw [params_actionValues, masked_length x.mask x.values hml, hlen]
      have hp : (categoricalParams f raw x.mask x.values).probabilities.length = num := by
        rw [params_length f raw x.mask x.values hml, hlen]
      have hmode : InSpace (K := K) (.int num mask)
          (.int (argmax (categoricalParams f raw x.mask x.values).actionValues)) := by
        constructor
        · rw [← hav]
          refine argmax_lt _ ?_
          intro h
          rw [h] at hav
          simp at hav
          omega
        · intro m hm'
          obtain ⟨h1, h2⟩ := hvm m hm'
          have hxm : x.mask = some m := by rw [hmask, hm']
          obtain ⟨-, hvs⟩ := hm (by rw [hxm]; rfl)
          rw [params_actionValues, hxm]
          exact mode_allowed m x.values (by omega) h2 hvs
      by_cases hdet : deterministic = true
      · rw [if_pos hdet]
        simp only [ActionDist.mode, hraw]
        exact hmode
      · rw [if_neg hdet]
        simp only [ActionDist.sample, hraw]
        refine ⟨sample_lt f _ _ _ num hpos hav hp ?_ (by omega), ?_⟩
        · rw [params_logits, List.length_map, hp]
        · intro m hm'
          by_cases ht : t < eps
          · rw [categoricalSample, if_pos ht]
            exact hmode.2 m hm'
          · obtain ⟨h1, h2⟩ := hvm m hm'
            have hxm : x.mask = some m := by rw [hmask, hm']
            obtain ⟨hmil, hvs⟩ := hm (by rw [hxm]; rfl)
            obtain ⟨j, q, hq, hqe⟩ := params_some hf raw x.mask x.values hne hml hmil
            obtain ⟨hi, hpr⟩ := sample_probability hf raw x.mask x.values z.values _ (not_lt.1 ht)
              hml hzl hzu hq hqe
            generalize categoricalSample f (categoricalParams f raw x.mask x.values)
              (t) z.values = i at hi hpr ⊢
            have him : i < m.length := by omega
            cases hb : m[i] with
            | true => rw [List.getElem?_eq_getElem him, hb]
            | false =>
              exfalso
              rw [hxm] at hpr hp
              have hil : i < (categoricalParams f raw (some m) x.values).probabilities.length := by
                omega
              have h3 := hpr _ (List.getElem?_eq_getElem hil)
              have h4 := masked_probability hf raw m x.values (by omega) h2 hvs (i := i)
                (by rw [List.getElem?_eq_getElem him, hb]) (List.getElem?_eq_getElem hil)
              linarith
  | gaussian tr lo hi =>
    cases s with
    | bool => exact hd.elim
    | int => exact hd.elim
    | float lo' hi' =>
      obtain ⟨rfl, rfl, given, hg⟩ := hd
      by_cases hdet : deterministic = true
      · rw [if_pos hdet]
        exact bound_in_space hf given tr _ _ hs hg _
      · rw [if_neg hdet]
        exact bound_in_space hf given tr _ _ hs hg _
  | beta lo hi =>
    cases s with
    | bool => exact hd.elim
    | int => exact hd.elim
    | float lo' hi' =>
      obtain ⟨rfl, rfl⟩ := hd
      have hlt := hs lo hi rfl rfl
      obtain ⟨h1, h2⟩ := beta_unit hf x.first x.second
      by_cases hdet : deterministic = true
      · rw [if_pos hdet]
        exact scaled_in_space hlt h1 h2
      · rw [if_neg hdet]
        simp only [ActionDist.sample, betaSample]
        split
        · exact scaled_in_space hlt h1 h2
        · obtain ⟨hg, hh⟩ := hz
          refine scaled_in_space hlt (div_nonneg (by linarith) (by linarith)) ?_
          rw [div_le_one (by linarith)]
          linarith

end Verif.Policy
