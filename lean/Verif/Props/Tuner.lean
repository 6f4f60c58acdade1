import Verif.Tune.Lemmas
import Mathlib.Algebra.Order.Field.Rat

/-!
# C147: the hyperparameter tuner
-/

namespace Verif.Props.Tuner
open Verif.Tune

variable {K : Type} [Field K] [LinearOrder K]

theorem baseline_ok {network : Bool} {c : Config K} {w : K} {a : Choice} (hw : c.weight = some w) (ha : c.advantage = some a) :
    withBaseline network c =
      .ok { plain c with predict := true, advantage := a = .yes, network := network, weight := some w, objective := true } := by
  unfold withBaseline
  rw [ha, hw]

theorem plain_fields (c : Config K) : (c.clipping ≤ 1 → clippingOf c = some c.clipping) ∧ (1 < c.clipping → clippingOf c = none) ∧
    (1 / 100000 ≤ c.entropy → entropyOf c = c.entropy) ∧ (c.entropy < 1 / 100000 → entropyOf c = 0) :=
  ⟨fun h => if_neg (not_lt.2 h), fun h => if_pos h, fun h => if_neg (not_lt.2 h), fun h => if_pos h⟩

/-- For every configuration of the search space there is an agent which follows it. -/
theorem follows (b : Bounds K) (c : Config K) (h : InSpace b c) : ∃ a, agentOf c = .ok a ∧ Follows c a := by
  obtain ⟨f1, f2, f3, f4⟩ := plain_fields c
  unfold agentOf
  cases hb : c.baseline with
  | no =>
    exact ⟨_, rfl, rfl, rfl, rfl, rfl, rfl, decide_eq_true_iff, f1, f2, f3, f4, rfl, fun _ => ⟨rfl, rfl, rfl, rfl, rfl⟩, fun h => absurd hb h,
      ⟨nofun, fun h => by rw [hb] at h; cases h⟩⟩
  | same =>
    obtain ⟨w, hw, _⟩ := h.weight (by rw [hb]; nofun)
    obtain ⟨a, ha⟩ := h.advantage (by rw [hb]; nofun)
    refine ⟨_, baseline_ok hw ha, rfl, rfl, rfl, rfl, rfl, decide_eq_true_iff, f1, f2, f3, f4, rfl, fun h => ?_, fun _ => ⟨rfl, hw.symm, rfl, ?_⟩, ?_⟩
    · rw [hb] at h; cases h
    · rw [ha, Option.some.injEq]
      exact decide_eq_true_iff
    · exact ⟨nofun, fun h => by rw [hb] at h; cases h⟩
  | yes =>
    obtain ⟨w, hw, _⟩ := h.weight (by rw [hb]; nofun)
    obtain ⟨a, ha⟩ := h.advantage (by rw [hb]; nofun)
    refine ⟨_, baseline_ok hw ha, rfl, rfl, rfl, rfl, rfl, decide_eq_true_iff, f1, f2, f3, f4, rfl, fun h => ?_, fun _ => ⟨rfl, hw.symm, rfl, ?_⟩, ?_⟩
    · rw [hb] at h; cases h
    · rw [ha, Option.some.injEq]
      exact decide_eq_true_iff
    · exact ⟨fun _ => hb, fun _ => rfl⟩
  | unknown => exact absurd hb h.known

/-- A configuration of the search space. -/
def sample : Config ℚ := ⟨10, 1 / 1000, 5, 20, 99 / 100, .yes, 6 / 5, .same, 1 / 10, some 2, some .yes⟩

theorem sample_in : InSpace bounds sample :=
  ⟨by constructor <;> decide +kernel, by constructor <;> decide +kernel, by constructor <;> decide +kernel, by constructor <;> decide +kernel,
    by constructor <;> decide +kernel, by constructor <;> decide +kernel, by constructor <;> decide +kernel, nofun,
    fun _ => ⟨2, rfl, by constructor <;> decide +kernel⟩, fun _ => ⟨.yes, rfl⟩⟩

example : agentOf sample = .ok ⟨10, 1 / 1000, 5, true, none, 20, 99 / 100, true, true, false, false, some 2, true, 1 / 10⟩ := by decide +kernel

/-- Unknown baselines and missing parameters of a baseline are refused. -/
theorem incomplete (c : Config K) (h : c.baseline = .unknown ∨ (c.baseline ≠ .no ∧ (c.weight = none ∨ c.advantage = none))) :
    ∃ e, agentOf c = .error e := by
  unfold agentOf withBaseline
  rcases h with h | ⟨h1, h2⟩
  · rw [h]
    exact ⟨_, rfl⟩
  · cases hb : c.baseline with
    | no => exact absurd hb h1
    | unknown => exact ⟨_, rfl⟩
    | same =>
      cases ha : c.advantage with
      | none => exact ⟨_, rfl⟩
      | some a =>
        rw [h2.resolve_right (by rw [ha]; nofun)]
        exact ⟨_, rfl⟩
    | yes =>
      cases ha : c.advantage with
      | none => exact ⟨_, rfl⟩
      | some a =>
        rw [h2.resolve_right (by rw [ha]; nofun)]
        exact ⟨_, rfl⟩

example : agentOf { sample with weight := none } = .error .key := by decide +kernel

/-- The ranges of the search space are such that the agent is valid. -/
theorem valid [IsStrictOrderedRing K] (c : Config K) (h : InSpace bounds c) (a : Agent K) (ha : agentOf c = .ok a) : Valid a := by
  obtain ⟨a', e, f⟩ := follows bounds c h
  have : a = a' := by rw [ha] at e; exact Except.ok.inj e
  subst this
  have b1 : (1 : Nat) ≤ c.batch := h.batch.1
  have b2 : (1 / 100000 : K) ≤ c.rate := h.rate.1
  have b3 : (1 : Nat) ≤ c.multi := h.multi.1
  have b4 : (1 : Nat) ≤ c.horizon := h.horizon.1
  have b5 : (4 / 5 : K) ≤ c.discount := h.discount.1
  have b6 : c.discount ≤ (1 : K) := h.discount.2
  have b7 : (1 / 20 : K) ≤ c.clipping := h.clipping.1
  have n1 : (0 : K) < 1 / 100000 := by norm_num
  have n2 : (0 : K) < 4 / 5 := by norm_num
  have n3 : (0 : K) < 1 / 20 := by norm_num
  have n4 : (0 : K) < 1 / 100 := by norm_num
  refine ⟨by rw [f.batch]; exact b1, by rw [f.rate]; linarith, by rw [f.multi]; exact b3, by rw [f.horizon]; exact b4,
    by rw [f.discount]; exact ⟨by linarith, b6⟩, fun v hv => ?_, fun v hv => ?_, ?_, fun hx => ?_, fun hx => ?_⟩
  · rcases le_or_gt c.clipping 1 with g | g
    · rw [f.clipped g] at hv
      rw [← Option.some.inj hv]
      linarith
    · rw [f.unclipped g] at hv
      cases hv
  · by_cases g : c.baseline = .no
    · rw [(f.without g).2.2.2.1] at hv
      cases hv
    · obtain ⟨w, hw, hl, _⟩ := h.weight g
      have hl' : (1 / 100 : K) ≤ w := hl
      rw [(f.baseline g).2.1, hw] at hv
      rw [← Option.some.inj hv]
      linarith
  · rcases le_or_gt (1 / 100000) c.entropy with g | g
    · rw [f.entropy g]; linarith
    · rw [f.nothing g]
  · by_cases g : c.baseline = .no
    · rw [(f.without g).2.1] at hx
      cases hx
    · exact (f.baseline g).2.2.1
  · by_cases g : c.baseline = .no
    · rw [(f.without g).1] at hx
      cases hx
    · exact (f.baseline g).2.2.1

example : InSpace bounds sample := sample_in

/-- Budget `base ^ k` is for round `k`, with its number of runs; the agent, the number of environments (at most the batch size) and the returns are those
of the configuration, and the loss is that of these returns. -/
theorem runs (base k : Nat) (hb : 2 ≤ base) (perRound : List Nat) (n : Nat) (hk : perRound[k]? = some n) (num : Option Nat)
    (run : Agent K → Option Nat → Nat → List K) (c : Config K) (a : Agent K) (ha : agentOf c = .ok a) :
    ∃ p, compute base (base ^ k) perRound num run c = .ok (lossOf ((List.range n).map (run a p)), (List.range n).map (run a p)) ∧ (num = none → p = none) ∧
      ∀ m, num = some m → ∃ q, p = some q ∧ q ≤ m ∧ q ≤ c.batch ∧ (q = m ∨ q = c.batch) := by
  have hl : k < perRound.length := by
    by_contra h
    rw [List.getElem?_eq_none (by omega)] at hk
    cases hk
  have hr : roundOf base (base ^ k) perRound.length 0 = .ok k := by
    rw [round_ok base (base ^ k) perRound.length 0 k hb (by rw [Nat.zero_add]) hl, Nat.zero_add]
  have hn : runsOf base (base ^ k) perRound = .ok n := by
    unfold runsOf
    rw [hr]
    simp only
    rw [hk]
  refine ⟨parallel num c, ?_, fun h => by rw [h]; rfl, fun m h => ⟨min m c.batch, by rw [h]; rfl, Nat.min_le_left _ _, Nat.min_le_right _ _, by omega⟩⟩
  unfold compute
  rw [hn]
  simp only
  rw [ha]

example : runsOf 3 9 [1, 2, 5, 10] = .ok 5 := by decide

/-- Other budgets are refused. -/
theorem refused (base budget : Nat) (perRound : List Nat) (h : ∀ k < perRound.length, base ^ k ≠ budget) (num : Option Nat)
    (run : Agent K → Option Nat → Nat → List K) (c : Config K) : compute base budget perRound num run c = .error .assertion := by
  have hr := round_error base budget perRound.length 0 (fun j hj => by rw [Nat.zero_add]; exact h j hj)
  unfold compute runsOf
  rw [hr]

example : ∀ k < [1, 2, 5, 10].length, 3 ^ k ≠ 81 := by decide

/-- The loss is the negative sum of the mean return and the mean of the last 20 returns, averaged over the runs. -/
theorem loss [IsStrictOrderedRing K] (rs : List (List K)) (h0 : rs ≠ []) (h : ∀ r ∈ rs, r ≠ []) :
    ∃ (as fs : List K) (a f : K), lossOf rs = some (-(a + f)) ∧ IsMean as a ∧ IsMean fs f ∧ as.length = rs.length ∧ fs.length = rs.length ∧
      (∀ (i : Nat) (r : List K) (m : K), rs[i]? = some r → as[i]? = some m → IsMean r m) ∧
      ∀ (i : Nat) (r : List K) (m : K), rs[i]? = some r → fs[i]? = some m → ∃ t, IsLast 20 r t ∧ IsMean t m := by
  obtain ⟨as, a1, a2, a3⟩ := means_is id rs h
  obtain ⟨fs, f1, f2, f3⟩ := means_is last20 rs fun r hr => last_ne r (h r hr)
  have ne : ∀ l : List K, l.length = rs.length → l ≠ [] := fun l hl h' => h0 (List.length_eq_zero_iff.1 (by rw [← hl, h']; rfl))
  obtain ⟨a, b1, b2⟩ := mean_is as (ne as a2)
  obtain ⟨f, g1, g2⟩ := mean_is fs (ne fs f2)
  refine ⟨as, fs, a, f, ?_, b2, g2, a2, f2, a3, fun i r m hr hm => ⟨last20 r, last_is r, f3 i r m hr hm⟩⟩
  unfold lossOf
  rw [a1]
  simp only
  rw [f1]
  simp only
  rw [b1]
  simp only
  rw [g1]

example : lossOf [[(1 : ℚ), 2, 3], [4]] = some (-6) := by decide +kernel

/-- Greater returns, episode by episode, never have a greater loss. -/
theorem better [IsStrictOrderedRing K] (rs rs' : List (List K)) (hl : rs.length = rs'.length)
    (hr : ∀ (i : Nat) (r r' : List K), rs[i]? = some r → rs'[i]? = some r' → r ≠ [] ∧ r.length = r'.length ∧
      ∀ (j : Nat) (x y : K), r[j]? = some x → r'[j]? = some y → x ≤ y)
    (v v' : K) (h1 : lossOf rs = some v) (h2 : lossOf rs' = some v') : v' ≤ v := by
  have h0 : rs ≠ [] := fun h => by rw [h] at h1; cases h1
  have n1 : ∀ r ∈ rs, r ≠ [] := fun r h => by
    obtain ⟨i, hi, e⟩ := List.mem_iff_getElem.1 h
    exact (hr i r _ (by rw [List.getElem?_eq_getElem hi, e]) (List.getElem?_eq_getElem (by omega))).1
  have n2 : ∀ r ∈ rs', r ≠ [] := fun r h => by
    obtain ⟨i, hi, e⟩ := List.mem_iff_getElem.1 h
    have := hr i _ r (List.getElem?_eq_getElem (by omega)) (by rw [List.getElem?_eq_getElem hi, e])
    intro h'
    rw [h'] at this
    exact this.1 (List.length_eq_zero_iff.1 this.2.1)
  obtain ⟨as, fs, a, f, e, ha, hf, la, lf, pa, pf⟩ := loss rs h0 n1
  obtain ⟨as', fs', a', f', e', ha', hf', la', lf', pa', pf'⟩ := loss rs' (fun h => h0 (List.length_eq_zero_iff.1 (by rw [hl, h]; rfl))) n2
  rw [h1] at e
  rw [h2] at e'
  rw [Option.some.inj e, Option.some.inj e']
  have get : ∀ (i : Nat) (l : List K) (x : K), l.length = rs.length → l[i]? = some x → i < rs.length := fun i l x hl hx => by
    by_contra g
    rw [List.getElem?_eq_none (by omega)] at hx
    cases hx
  have l1 : a ≤ a' := mean_le ha ha' (by omega) fun i x y hx hy => by
    have hi := get i as x la hx
    have q1 := List.getElem?_eq_getElem hi
    have q2 := List.getElem?_eq_getElem (l := rs') (i := i) (by omega)
    obtain ⟨_, c1, c2⟩ := hr i _ _ q1 q2
    exact mean_le (pa i _ x q1 hx) (pa' i _ y q2 hy) c1 c2
  have l2 : f ≤ f' := mean_le hf hf' (by omega) fun i x y hx hy => by
    have hi := get i fs x lf hx
    have q1 := List.getElem?_eq_getElem hi
    have q2 := List.getElem?_eq_getElem (l := rs') (i := i) (by omega)
    obtain ⟨_, c1, c2⟩ := hr i _ _ q1 q2
    obtain ⟨t, ⟨s, s1, s2⟩, s3⟩ := pf i _ x q1 hx
    obtain ⟨t', ⟨s', s1', s2'⟩, s3'⟩ := pf' i _ y q2 hy
    have ls : s.length = s'.length := by
      have := congrArg List.length s1
      have := congrArg List.length s1'
      rw [List.length_append] at *
      omega
    refine mean_le s3 s3' (by omega) fun j u v hu hv => c2 (s.length + j) u v ?_ ?_
    · rw [s1, List.getElem?_append_right (by omega), Nat.add_sub_cancel_left]; exact hu
    · rw [s1', List.getElem?_append_right (by omega), ls, Nat.add_sub_cancel_left]; exact hv
  linarith

example : lossOf [[(1 : ℚ), 2, 3], [5]] = some (-7) := by decide +kernel

end Verif.Props.Tuner
