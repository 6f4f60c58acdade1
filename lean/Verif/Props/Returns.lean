import Verif.Returns.Facts

/-!
# Properties C08, C09, C10, C45: what the act/observe buffer hands over to the memory

Model: `Verif.Returns.Model`, specification vocabulary: `Verif.Returns.Spec`.
-/

namespace Verif.Props.Returns

open Verif.Returns

/-- **C08.** Without value predictions, for every discount (including 0), horizon, buffering mode and every way of
cutting episodes into observe calls: the calls succeed, and what reaches the memory is, for every finished episode,
each timestep in order with its textbook truncated discounted return, followed by the already complete returns of
the episode under way. -/
theorem returns_textbook_partial {σ : Type} (c : Config σ) (hl : c.lam = none) (he : c.early = false)
    (hp : c.predTerm = false) (bo hmax met : Option Nat) (par : Nat) (u : Setup)
    (hu : Setup.ofOptions bo hmax met par = some u) (z : σ) (h : Nat) (ops : List (Op σ))
    (ha : Always c u (Allowed bo hmax met) Ghost.init ops) (hr : Always c u EndsRegularly Ghost.init ops)
    (hh : ConstHorizon h ops) :
    ∃ b, (Buf.init u z).run c u ops = some b ∧
      b.out = (final c u ops).done.flatMap (fun ep => textbook c.gamma (horizonOf u h ep) ep) ++
        (textbook c.gamma h (final c u ops).cur).take (final c u ops).n := by
  have hc : c.Valid := fun h => absurd hl h
  have hev : ∀ s, c.ev s = 0 := by intro s; simp [Config.ev, he]
  have htr : c.trace = 1 := by simp [Config.trace, hl]
  obtain ⟨b, e, R⟩ := run_refines c hc bo hmax met par u hu ops _ _ (Rep.init u (hmax.getD 0) z) ha
    (regular_of_ends c hl hp u ops _ hr)
  refine ⟨b, e, ?_⟩
  have hconst := always_const c u bo hmax met h (circular_horizon hu) ops _ (ghost_init_const c u h) ha hh
  have hcodes := done_codes c u bo hmax met ops _ ha hr (by simp [Ghost.init])
  rw [R.out, hconst.2.2, htr]
  congr 1
  · have : ∀ ep ∈ (final c u ops).done, contrib c u h ep = textbook c.gamma (horizonOf u h ep) ep := by
      intro ep hep
      obtain ⟨A, s, r, e⟩ := hcodes ep hep
      unfold contrib
      rw [htr]
      apply attach_textbook
      · rw [e, finished_concat]
        simp [plain, rews, Config.boots, hp, Function.comp_def]
      · rw [e, finished_concat]
        intro p hp'
        simp only [List.mem_append, plain, List.mem_map, List.mem_singleton] at hp'
        rcases hp' with ⟨x, _, e⟩ | e
        · rw [← e]; exact hev _
        · rw [e]; exact hev _
    exact flatMap_congr_mem _ this
  · rw [attach_textbook]
    · rfl
    · simp [plain, rews, Function.comp_def]
    · intro p hp'
      simp only [plain, List.mem_map] at hp'
      obtain ⟨x, _, e⟩ := hp'
      rw [← e]; exact hev _

/-- **C08, corollary.** Two histories with the same finished episodes and none under way hand over the same
timesteps with the same returns, whatever the partition into observe calls and the buffering mode. -/
theorem returns_independent_of_batching_partial {σ : Type} (c : Config σ) (hl : c.lam = none) (he : c.early = false)
    (hp : c.predTerm = false) (h : Nat) (z : σ)
    (bo₁ hmax₁ met₁ : Option Nat) (par₁ : Nat) (u₁ : Setup) (hu₁ : Setup.ofOptions bo₁ hmax₁ met₁ par₁ = some u₁)
    (bo₂ hmax₂ met₂ : Option Nat) (par₂ : Nat) (u₂ : Setup) (hu₂ : Setup.ofOptions bo₂ hmax₂ met₂ par₂ = some u₂)
    (heh : u₁.episodeHorizon = u₂.episodeHorizon) (ops₁ ops₂ : List (Op σ))
    (ha₁ : Always c u₁ (Allowed bo₁ hmax₁ met₁) Ghost.init ops₁)
    (hr₁ : Always c u₁ EndsRegularly Ghost.init ops₁) (hh₁ : ConstHorizon h ops₁)
    (ha₂ : Always c u₂ (Allowed bo₂ hmax₂ met₂) Ghost.init ops₂)
    (hr₂ : Always c u₂ EndsRegularly Ghost.init ops₂) (hh₂ : ConstHorizon h ops₂)
    (hdone : (final c u₁ ops₁).done = (final c u₂ ops₂).done)
    (hc₁ : (final c u₁ ops₁).cur = []) (hc₂ : (final c u₂ ops₂).cur = []) :
    ∃ b₁ b₂, (Buf.init u₁ z).run c u₁ ops₁ = some b₁ ∧ (Buf.init u₂ z).run c u₂ ops₂ = some b₂ ∧ b₁.out = b₂.out := by
  obtain ⟨b₁, e₁, o₁⟩ := returns_textbook_partial c hl he hp bo₁ hmax₁ met₁ par₁ u₁ hu₁ z h ops₁ ha₁ hr₁ hh₁
  obtain ⟨b₂, e₂, o₂⟩ := returns_textbook_partial c hl he hp bo₂ hmax₂ met₂ par₂ u₂ hu₂ z h ops₂ ha₂ hr₂ hh₂
  refine ⟨b₁, b₂, e₁, e₂, ?_⟩
  have hH : (fun ep : List (Item σ) => textbook c.gamma (horizonOf u₁ h ep) ep) =
      fun ep => textbook c.gamma (horizonOf u₂ h ep) ep := by
    funext ep; simp only [horizonOf, heh]
  rw [o₁, o₂, hdone, hc₁, hc₂, hH]
  simp [textbook]

/-- A configuration without value prediction, used in the examples. -/
def exConfig (γ : Rat) : Config Nat := { gamma := γ, lam := none, early := false, predTerm := false, V := fun _ => 7 }

/-- One episode of three timesteps, observed in chunks of one and two, then the start of another one. -/
def exOps : List (Op Nat) :=
  [.act 0, .observe 2 [(0, 1)], .act 1, .act 2, .observe 2 [(0, 10), (1, 100)], .act 3]

-- non-vacuity: an allowed history in the circular mode, and what it hands over
example : Setup.ofOptions (some 2) (some 2) none 1 = some ⟨.circular, 4, false⟩ := rfl
example : Always (exConfig (1/2)) ⟨.circular, 4, false⟩ (Allowed (some 2) (some 2) none) Ghost.init exOps ∧
    Always (exConfig (1/2)) ⟨.circular, 4, false⟩ EndsRegularly Ghost.init exOps ∧ ConstHorizon 2 exOps := by
  refine ⟨?_, ?_, ?_⟩
  · simp [exOps, Always, Allowed, Ghost.step, Ghost.init, isTerminal]
  · simp [exOps, Always, EndsRegularly, isTerminal]
  · intro h b hm
    simp [exOps] at hm
    omega
example : ((Buf.init ⟨.circular, 4, false⟩ 9).run (exConfig (1/2)) ⟨.circular, 4, false⟩ exOps).map Buf.out =
    some [(0, 0, some 6), (1, 0, some 60), (2, 1, some 100)] := by decide +kernel

/-- **C09.** In every mode, with any (changing) horizon within its maximum, TD(λ) or value prediction: the calls
succeed, everything observed is in a finished episode or in the current one, and what was handed over is, in order
and each timestep exactly once, all finished episodes and then a prefix of the current one. -/
theorem handed_over_exactly_once_partial {σ : Type} (c : Config σ) (hc : c.Valid) (bo hmax met : Option Nat) (par : Nat)
    (u : Setup) (hu : Setup.ofOptions bo hmax met par = some u) (z : σ) (ops : List (Op σ))
    (ha : Always c u (Allowed bo hmax met) Ghost.init ops) (hr : Always c u (Regular c) Ghost.init ops) :
    ∃ b, (Buf.init u z).run c u ops = some b ∧
      (final c u ops).done.flatten ++ (final c u ops).cur = (acted ops).zip (observed ops) ∧
      b.out.map label = ((final c u ops).done.flatten ++ (final c u ops).cur.take b.start).map itemLabel ∧
      b.start ≤ (final c u ops).cur.length := by
  obtain ⟨b, e, R⟩ := run_refines c hc bo hmax met par u hu ops _ _ (Rep.init u (hmax.getD 0) z) ha hr
  have hok := always_ok c u bo hmax met ops _ (ghost_init_ok u) ha
  have hobs := observed_eq c u bo hmax met ops Ghost.init ha
  refine ⟨b, e, ?_, ?_, ?_⟩
  · rw [show final c u ops = Ghost.init.run c u ops from rfl, hobs]
    simp [Ghost.init]
  · rw [R.out, R.st]
    exact hok.2.2
  · rw [R.st]
    exact hok.1

/-- **C09.** The slot written by an allowed `act` call is different from the slot of every timestep that has not
been handed over yet, and those slots still hold exactly what was acted on. -/
theorem never_overwrites_early_partial {σ : Type} (c : Config σ) (hc : c.Valid) (bo hmax met : Option Nat) (par : Nat)
    (u : Setup) (hu : Setup.ofOptions bo hmax met par = some u) (z : σ) (ops : List (Op σ)) (s : σ)
    (ha : Always c u (Allowed bo hmax met) Ghost.init (ops ++ [.act s]))
    (hr : Always c u (Regular c) Ghost.init (ops ++ [.act s])) :
    ∃ b b', (Buf.init u z).run c u ops = some b ∧ b.act u s = some b' ∧
      ∀ i, b.start ≤ i → i < b.index → i % u.cap ≠ b.index % u.cap ∧
        b'.S[i % u.cap]? = (recs (final c u ops).cur ++ (final c u ops).pend)[i]? := by
  have ha' := Always.append ops (.act s) _ ha
  have hr' := Always.append ops (.act s) _ hr
  obtain ⟨b, e, R⟩ := run_refines c hc bo hmax met par u hu ops _ _ (Rep.init u (hmax.getD 0) z) ha' hr'
  obtain ⟨b', e', R'⟩ := run_refines c hc bo hmax met par u hu (ops ++ [.act s]) _ _ (Rep.init u (hmax.getD 0) z) ha hr
  have hact : b.act u s = some b' := by
    have h1 : (Buf.init u z).run c u (ops ++ [.act s]) = (Buf.init u z).run c u ops >>= fun b => b.run c u [.act s] := by
      simp [Buf.run, List.foldlM_append]
    rw [h1, e] at e'
    simpa [Buf.run, Buf.step] using e'
  have hg : Ghost.init.run c u (ops ++ [.act s]) = (final c u ops).step c u (.act s) := by
    simp [final, Ghost.run, List.foldl_append]
  rw [hg] at R'
  have hn : (final c u ops).n ≤ (final c u ops).cur.length :=
    (always_ok c u bo hmax met ops _ (ghost_init_ok u) ha').1
  refine ⟨b, b', e, hact, ?_⟩
  intro i h1 h2
  have hst : b.start = (final c u ops).n := R.st
  have hix : b.index = (final c u ops).cur.length + (final c u ops).pend.length := R.idx
  have hfit := R'.fit
  simp only [Ghost.step, List.length_append, List.length_cons, List.length_nil] at hfit
  constructor
  · have := Verif.Memory.mod_ne_of_lt (cap := u.cap) (p := i) (k := b.index - i) (by omega) (by omega)
    rw [show i + (b.index - i) = b.index by omega] at this
    exact fun h => this h.symm
  · have hS := R'.aS (i - b.start) (by
      simp only [Ghost.step, List.length_drop, List.length_append, recs_length, List.length_cons, List.length_nil]
      omega)
    simp only [Ghost.step, List.getElem?_drop] at hS
    rw [show (final c u ops).n + (i - b.start) = i by omega] at hS
    rw [hS, ← List.append_assoc, List.getElem?_append_left (by simp [recs_length]; omega)]

-- non-vacuity of the two C09 theorems: the example history extended by one `act`
example : Always (exConfig (1/2)) ⟨.circular, 4, false⟩ (Allowed (some 2) (some 2) none) Ghost.init
      (exOps ++ [.act 4]) ∧
    Always (exConfig (1/2)) ⟨.circular, 4, false⟩ (Regular (exConfig (1/2))) Ghost.init (exOps ++ [.act 4]) := by
  constructor
  · simp [exOps, Always, Allowed, Ghost.step, Ghost.init, isTerminal]
  · simp [exOps, Always, Regular, Config.boots, exConfig, isTerminal]
-- a timestep is overwritten if the protocol is not respected: three `act` calls with `buffer_observe = 1`, horizon 1
example : ((Buf.init ⟨.circular, 2, false⟩ 9).run (exConfig 1) ⟨.circular, 2, false⟩
    [.act 0, .act 1, .act 2]).map Buf.S = some [2, 1] := by decide +kernel

/-- **C45.** General form with early value prediction and TD(λ): what is handed over for each finished episode are the
truncated λ-returns of its rewards, where the last reward is replaced by the value estimate if the episode was
aborted (or all terminal values are predicted). Excluded (`Regular`): discount 0 together with such an estimate,
and single-timestep episodes under TD(λ). -/
theorem bootstrapped_returns_partial {σ : Type} (c : Config σ) (hc : c.Valid) (bo hmax met : Option Nat) (par : Nat)
    (u : Setup) (hu : Setup.ofOptions bo hmax met par = some u) (z : σ) (h : Nat) (ops : List (Op σ))
    (ha : Always c u (Allowed bo hmax met) Ghost.init ops) (hr : Always c u (Regular c) Ghost.init ops)
    (hh : ConstHorizon h ops) :
    ∃ b, (Buf.init u z).run c u ops = some b ∧
      b.out = (final c u ops).done.flatMap (fun ep =>
          attach ep (allReturns c.gamma c.trace (horizonOf u h ep) (finished c ep))) ++
        (attach (final c u ops).cur (allReturns c.gamma c.trace h (plain c (final c u ops).cur))).take
          (final c u ops).n := by
  obtain ⟨b, e, R⟩ := run_refines c hc bo hmax met par u hu ops _ _ (Rep.init u (hmax.getD 0) z) ha hr
  refine ⟨b, e, ?_⟩
  have hconst := always_const c u bo hmax met h (circular_horizon hu) ops _ (ghost_init_const c u h) ha hh
  rw [R.out]
  exact hconst.2.2

/-- A TD(λ) configuration with early value prediction. -/
def exLam : Config Nat := { gamma := 1/2, lam := some (1/2), early := true, predTerm := false, V := fun s => s }

-- non-vacuity: an aborted episode under TD(λ)
example : ((Buf.init ⟨.circular, 4, false⟩ 9).run exLam ⟨.circular, 4, false⟩
    [.act 2, .observe 2 [(0, 1)], .act 4, .act 6, .observe 2 [(0, 10), (2, 100)]]).map Buf.out =
    some [(2, 0, some (21/4)), (4, 0, some 13), (6, 2, some 6)] := by decide +kernel
example : Always exLam ⟨.circular, 4, false⟩ (Regular exLam) Ghost.init
    [.act 2, .observe 2 [(0, 1)], .act 4, .act 6, .observe 2 [(0, 10), (2, 100)]] := by
  have h : (1 : Rat) / 2 ≠ 0 := by decide +kernel
  simp [Always, Regular, exLam, Ghost.step, Ghost.init, isTerminal, h]

/-- **C45, violation.** Under TD(λ) an episode of a single timestep makes `core_observe` fail
(`values[-1]` of an empty tensor, line 1956), whatever the discount, reward and terminal code. -/
theorem lam_single_timestep_violation {σ : Type} (c : Config σ) (l : Rat) (hl : c.lam = some l) (z s : σ) (r : Rat)
    (h : Nat) (h1 : 1 ≤ h) (t : Nat) (ht : 0 < t) :
    (Buf.init ⟨.circular, h + 1, false⟩ z).run c ⟨.circular, h + 1, false⟩ [.act s, .observe h [(t, r)]] = none := by
  have hterm : isTerminal [(t, r)] = true := by simp [isTerminal, ht]
  have hg : Verif.Memory.gather (List.set (List.replicate (h + 1) z) (0 % (h + 1)) s)
      (Verif.Memory.slots (h + 1) 0 1) = some [s] := by
    simp [Verif.Memory.gather, Verif.Memory.slots, Verif.Memory.rangeFrom, List.replicate_succ]
  simp only [Buf.run, List.foldlM_cons, Buf.step, Buf.act, Buf.init, if_true]
  rw [Verif.Memory.scatter, if_pos (by simp)]
  simp only [Verif.Memory.scatter, Option.map_some, Option.bind_eq_bind, Option.bind_some, Buf.observe, hterm, if_true,
    Nat.zero_add, Nat.sub_zero, hg]
  simp [Verif.Memory.slots, Verif.Memory.rangeFrom, Verif.Memory.gather, coreExperience, h1, iterative, hl]

/-- **C10, partial.** Aborted episodes without value prediction (discount not 0): every stored return is the textbook
return of the episode *with the last reward removed*. Missing: the last reward itself (`abort_loses_last_reward`). -/
theorem aborted_returns_partial {σ : Type} (c : Config σ) (hl : c.lam = none) (he : c.early = false)
    (hp : c.predTerm = false) (hγ : c.gamma ≠ 0) (bo hmax met : Option Nat) (par : Nat) (u : Setup)
    (hu : Setup.ofOptions bo hmax met par = some u) (z : σ) (h : Nat) (ops : List (Op σ))
    (ha : Always c u (Allowed bo hmax met) Ghost.init ops) (hh : ConstHorizon h ops) :
    ∃ b, (Buf.init u z).run c u ops = some b ∧
      b.out = (final c u ops).done.flatMap (fun ep => textbook c.gamma (horizonOf u h ep) (dropAbortReward ep)) ++
        (textbook c.gamma h (final c u ops).cur).take (final c u ops).n := by
  have hc : c.Valid := fun h => absurd hl h
  have hev : ∀ s, c.ev s = 0 := by intro s; simp [Config.ev, he]
  have htr : c.trace = 1 := by simp [Config.trace, hl]
  have hr : ∀ (ops : List (Op σ)) (g : Ghost σ), Always c u (Regular c) g ops := by
    intro ops
    induction ops with
    | nil => intro g; trivial
    | cons o ops ih =>
      intro g
      refine ⟨?_, ih _⟩
      cases o with
      | act s => trivial
      | observe h' batch => exact fun _ => ⟨Or.inl hγ, fun h => absurd hl h⟩
  obtain ⟨b, e, o⟩ := bootstrapped_returns_partial c hc bo hmax met par u hu z h ops ha (hr ops _) hh
  refine ⟨b, e, ?_⟩
  rw [o, htr]
  congr 1
  · apply flatMap_congr_mem
    intro ep _
    rcases eq_nil_or_concat' ep with h0 | ⟨A, ⟨s, t, r⟩, e⟩
    · rw [h0]; rfl
    · have hlab : attach ep (allReturns c.gamma 1 (horizonOf u h ep) (finished c ep)) =
          attach (dropAbortReward ep) (allReturns c.gamma 1 (horizonOf u h ep) (finished c ep)) := by
        generalize allReturns c.gamma 1 (horizonOf u h ep) (finished c ep) = X
        rw [e, dropAbortReward_concat]
        unfold attach
        apply List.ext_getElem?
        intro i
        simp only [List.getElem?_zipWith]
        by_cases hi : i < A.length
        · rw [List.getElem?_append_left hi, List.getElem?_append_left hi]
        · rw [List.getElem?_append_right (by omega), List.getElem?_append_right (by omega)]
          cases i - A.length with
          | zero => cases X[i]? <;> rfl
          | succ k => rfl
      rw [hlab]
      apply attach_textbook
      · rw [e, dropAbortReward_concat, finished_concat]
        have : (if c.boots t then c.ev s else r) = if t = 1 then r else 0 := by
          by_cases ht : t = 1
          · simp [Config.boots, hp, ht]
          · simp [Config.boots, hp, ht, hev]
        rw [this]
        simp [plain, rews, Function.comp_def]
      · rw [e, finished_concat]
        intro p hp'
        simp only [List.mem_append, plain, List.mem_map, List.mem_singleton] at hp'
        rcases hp' with ⟨x, _, e⟩ | e
        · rw [← e]; exact hev _
        · rw [e]; exact hev _
  · rw [attach_textbook]
    · simp [plain, rews, Function.comp_def]
    · intro p hp'
      simp only [plain, List.mem_map] at hp'
      obtain ⟨x, _, e⟩ := hp'
      rw [← e]; exact hev _

-- non-vacuity: an aborted episode of three timesteps, the last reward (100) is counted nowhere
example : ((Buf.init ⟨.circular, 4, false⟩ 9).run (exConfig (1/2)) ⟨.circular, 4, false⟩
    [.act 0, .observe 2 [(0, 1)], .act 1, .act 2, .observe 2 [(0, 10), (2, 100)]]).map Buf.out =
    some [(0, 0, some 6), (1, 0, some 10), (2, 2, some 0)] := by decide +kernel

/-- **C10, violation.** Without value prediction, for every discount, horizon and last reward other than zero: the
single timestep of an aborted episode is not stored with its reward. -/
theorem abort_loses_last_reward {σ : Type} (c : Config σ) (hl : c.lam = none) (he : c.early = false)
    (hp : c.predTerm = false) (z s : σ) (r : Rat) (hr : r ≠ 0) (h : Nat) (h1 : 1 ≤ h) :
    ∃ b x, (Buf.init ⟨.circular, h + 1, false⟩ z).run c ⟨.circular, h + 1, false⟩ [.act s, .observe h [(2, r)]] =
        some b ∧ b.out = [(s, 2, x)] ∧ x ≠ some (discSum c.gamma h [r]) ∧ (c.gamma = 0 → x = none) := by
  have hterm : isTerminal [(2, r)] = true := by simp [isTerminal]
  have hg : Verif.Memory.gather (List.set (List.replicate (h + 1) z) (0 % (h + 1)) s)
      (Verif.Memory.slots (h + 1) 0 1) = some [s] := by
    simp [Verif.Memory.gather, Verif.Memory.slots, Verif.Memory.rangeFrom, List.replicate_succ]
  have hd : discSum c.gamma h [r] = r := by
    cases h with
    | zero => omega
    | succ h => simp [discSum]; grind
  have hcore : coreExperience c (some h) [s] [2] [r] =
      some [(fdiv (-r) c.gamma).map (fun x => r + c.gamma * x)] := by
    simp [coreExperience, h1, iterative, hl, he, hp, scanRev]
  have hrun : ((Buf.init ⟨.circular, h + 1, false⟩ z).run c ⟨.circular, h + 1, false⟩
      [.act s, .observe h [(2, r)]]).map Buf.out = some [(s, 2, (fdiv (-r) c.gamma).map (fun x => r + c.gamma * x))] := by
    simp only [Buf.run, List.foldlM_cons, Buf.step, Buf.act, Buf.init, if_true]
    rw [Verif.Memory.scatter, if_pos (by simp)]
    simp only [Verif.Memory.scatter, Option.map_some, Option.bind_eq_bind, Option.bind_some, Buf.observe, hterm, if_true,
      Nat.zero_add, Nat.sub_zero, hg]
    have h0 : Verif.Memory.slots (h + 1) 0 (1 - [(2, r)].length) = [] := rfl
    rw [h0]
    simp only [Verif.Memory.gather, List.mapM_nil, Option.pure_def, Option.bind_some, List.nil_append, List.map_cons,
      List.map_nil, Bool.false_eq_true, if_false, hcore, Option.map_some]
    rfl
  obtain ⟨b, e, o⟩ := Option.map_eq_some_iff.mp hrun
  refine ⟨b, _, e, o, ?_, ?_⟩
  · by_cases hγ : c.gamma = 0
    · simp [fdiv, hγ]
    · simp only [fdiv, hγ, if_false, Option.map_some, hd]
      intro h
      have := Option.some.inj h
      apply hr
      grind
  · intro hγ
    simp [fdiv, hγ]

-- the two cases with concrete numbers: discount 1 stores 0 instead of 5, discount 0 stores a non-number
example : ((Buf.init ⟨.circular, 2, false⟩ 9).run (exConfig 1) ⟨.circular, 2, false⟩
    [.act 0, .observe 1 [(2, 5)]]).map Buf.out = some [(0, 2, some 0)] := by decide +kernel
example : ((Buf.init ⟨.circular, 2, false⟩ 9).run (exConfig 0) ⟨.circular, 2, false⟩
    [.act 0, .observe 1 [(2, 5)]]).map Buf.out = some [(0, 2, none)] := by decide +kernel

end Verif.Props.Returns
