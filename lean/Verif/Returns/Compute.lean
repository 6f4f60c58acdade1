import Verif.Returns.Lemmas

/-! Helper lemmas: `_nonterminal_experience`, `_terminal_experience_iterative` and
`_terminal_experience_parallel` all compute truncated λ-returns. -/

namespace Verif.Returns

/-- The three components of a list of items. -/
def recs {σ : Type} (L : List (Item σ)) : List σ := L.map Prod.fst
def codes {σ : Type} (L : List (Item σ)) : List Nat := L.map fun x => x.2.1
def rews {σ : Type} (L : List (Item σ)) : List Rat := L.map fun x => x.2.2

theorem plain_getElem? {σ : Type} (c : Config σ) (L : List (Item σ)) (j : Nat) :
    (plain c L)[j]? = (L[j]?).map fun x => (x.2.2, c.ev x.1) := by simp [plain]

/-- Allowed combinations of options: TD(λ) requires early horizon values (lines 540-545). -/
def Config.Valid {σ : Type} (c : Config σ) : Prop := c.lam ≠ none → c.early = true

theorem nonterminalReturns_eq {σ : Type} (c : Config σ) (hc : c.Valid) (h nc : Nat) (L : List (Item σ))
    (h1 : 1 ≤ h) (hL : L.length = nc + h) :
    nonterminalReturns c h nc (recs L) (rews L) =
      some ((allReturns c.gamma c.trace h (plain c L)).take nc) := by
  have hR : ∀ j, j + 1 < nc + h → (rews L).dropLast[j]? = ((plain c L)[j]?).map Prod.fst := by
    intro j hj
    rw [plain_getElem?, List.getElem?_dropLast, if_pos (by simp [rews]; omega)]
    simp [rews, Function.comp_def]
  have hQ : nc + h ≤ (plain c L).length := by rw [plain_length]; omega
  have hinit : (slice (plain c L) h nc).map Prod.snd = (slice (recs L) h nc).map c.ev := by
    simp [slice, plain, recs, Function.comp_def, List.map_take, List.map_drop]
  have hslice : slice (recs L) h nc = (recs L).drop h := by
    unfold slice
    apply List.take_of_length_le
    simp [recs]; omega
  have hev : c.early = true → (fun s => c.V s) = fun s => c.ev s := by
    intro he; funext s; simp [Config.ev, he]
  unfold nonterminalReturns
  cases he : c.early with
  | false =>
    have hl : c.lam = none := by
      cases hl : c.lam with
      | none => rfl
      | some l => exact absurd (hc (by simp [hl])) (by simp [he])
    simp only [if_true, hl]
    have := foldReturns_eq c nc h (plain c L) (rews L).dropLast [] hQ hR (by simp [hl])
    rw [hinit] at this
    have hz : (slice (recs L) h nc).map c.ev = List.replicate nc 0 := by
      rw [hslice]
      apply List.ext_getElem?
      intro j
      simp only [List.getElem?_map, List.getElem?_drop, recs, List.getElem?_replicate]
      by_cases hj : j < nc
      · have : h + j < L.length := by omega
        simp [hj, this, Config.ev, he]
      · have : ¬ (h + j < L.length) := by omega
        simp [hj]; omega
    rw [hz] at this
    rw [this, range_map_allReturns _ _ _ _ _ (by rw [plain_length]; omega)]
  | true =>
    simp only [Bool.true_eq_false, if_false]
    rw [← range_map_allReturns _ _ _ _ _ (show nc ≤ (plain c L).length by rw [plain_length]; omega)]
    cases hl : c.lam with
    | none =>
      simp only
      rw [← foldReturns_eq c nc h (plain c L) (rews L).dropLast [] hQ hR (by simp [hl]), hinit, hslice]
      have := hev he
      simp only [this]
    | some l =>
      simp only
      have hV : ∀ j, j + 1 < nc + h →
          ((List.drop 1 (recs L)).map c.V)[j]? = ((plain c L)[j + 1]?).map Prod.snd := by
        intro j hj
        rw [plain_getElem?]
        simp [recs, Config.ev, he, Function.comp_def]
      rw [← foldReturns_eq c nc h (plain c L) (rews L).dropLast ((List.drop 1 (recs L)).map c.V) hQ hR
        (fun _ => hV), hinit, hslice]
      congr 1
      rw [← List.map_drop, List.drop_drop, show 1 + (h - 1) = h by omega]
      have := hev he
      simp only [this]

theorem getLast?_concat' {α : Type} (A : List α) (x : α) : (A ++ [x]).getLast? = some x := by simp

/-- Reverse scan of plain discounting: `tv` behind the last reward. -/
theorem scanRev_disc {σ : Type} (c : Config σ) (s : σ) (t : Nat) (r w : Rat) (A : List (Item σ))
    (hw : r + c.gamma * w = if c.boots t then c.ev s else r) (H : Nat) (hH : A.length + 1 ≤ H) :
    scanRev (fun next r => next.map (fun x => r + c.gamma * x)) (some w) (rews (A ++ [(s, t, r)])) =
      (allReturns c.gamma 1 H (finished c (A ++ [(s, t, r)]))).map some := by
  rw [finished_concat]
  induction A with
  | nil =>
    cases H with
    | zero => simp at hH
    | succ H =>
      have e0 : lamReturn c.gamma 1 H [] = 0 := by cases H <;> rfl
      simp only [List.nil_append, rews, plain, List.map_cons, List.map_nil, scanRev, List.headD_nil,
        Option.map_some, hw, allReturns, lamReturn, headValue, e0]
      congr 2
      grind
  | cons x A ih =>
    obtain ⟨s', t', r'⟩ := x
    simp at hH
    have ih := ih (by omega)
    cases H with
    | zero => simp at hH
    | succ H =>
      have hsat := lamReturn_sat c.gamma 1 (H + 1) H
        (plain c A ++ [(if c.boots t then c.ev s else r, c.ev s)]) (by simp [plain_length]; omega)
        (by simp [plain_length]; omega)
      have e1 : rews ((s', t', r') :: A ++ [(s, t, r)]) = r' :: rews (A ++ [(s, t, r)]) := rfl
      have e2 : plain c ((s', t', r') :: A) ++ [(if c.boots t then c.ev s else r, c.ev s)] =
          (r', c.ev s') :: (plain c A ++ [(if c.boots t then c.ev s else r, c.ev s)]) := rfl
      rw [e1, e2, scanRev, ih, allReturns, List.map_cons]
      congr 1
      cases hP : plain c A ++ [(if c.boots t then c.ev s else r, c.ev s)] with
      | nil => simp at hP
      | cons p P =>
        rw [hP] at hsat
        simp only [allReturns, List.map_cons, List.headD_cons, Option.map_some, hsat]
        congr 1
        rw [lamReturn]
        grind

/-- Reverse scan of the TD(λ) recursion. -/
theorem scanRev_lam {σ : Type} (c : Config σ) (l : Rat) (s : σ) (t : Nat) (r w : Rat) (A : List (Item σ))
    (hw : r + c.gamma * w = if c.boots t then c.ev s else r) (H : Nat) (hH : A.length + 1 ≤ H) :
    scanRev (fun next (rv : Rat × Option Rat) =>
        (rv.2.bind fun v => next.map fun x => (1 - l) * v + l * x).map fun x => rv.1 + c.gamma * x)
      (some w) ((rews (A ++ [(s, t, r)])).zip
        (((recs (A ++ [(s, t, r)])).drop 1).map (fun x => some (c.ev x)) ++ [some w])) =
      (allReturns c.gamma l H (finished c (A ++ [(s, t, r)]))).map some := by
  rw [finished_concat]
  induction A with
  | nil =>
    cases H with
    | zero => simp at hH
    | succ H =>
      have e0 : lamReturn c.gamma l H [] = 0 := by cases H <;> rfl
      simp only [List.nil_append, rews, recs, plain, List.map_cons, List.map_nil, scanRev, List.headD_nil,
        Option.map_some, allReturns, lamReturn, headValue, e0, List.drop_succ_cons, List.drop_nil,
        List.zip_cons_cons, List.zip_nil_left, Option.bind_some, ← hw]
      congr 2
      grind
  | cons x A ih =>
    obtain ⟨s', t', r'⟩ := x
    simp at hH
    have ih := ih (by omega)
    cases H with
    | zero => simp at hH
    | succ H =>
      have hsat := lamReturn_sat c.gamma l (H + 1) H
        (plain c A ++ [(if c.boots t then c.ev s else r, c.ev s)]) (by simp [plain_length]; omega)
        (by simp [plain_length]; omega)
      have e1 : rews ((s', t', r') :: A ++ [(s, t, r)]) = r' :: rews (A ++ [(s, t, r)]) := rfl
      have e2 : plain c ((s', t', r') :: A) ++ [(if c.boots t then c.ev s else r, c.ev s)] =
          (r', c.ev s') :: (plain c A ++ [(if c.boots t then c.ev s else r, c.ev s)]) := rfl
      have e3 : (recs ((s', t', r') :: A ++ [(s, t, r)])).drop 1 = recs (A ++ [(s, t, r)]) := rfl
      obtain ⟨y, M, hM⟩ : ∃ y M, A ++ [(s, t, r)] = y :: M := by
        cases A with
        | nil => exact ⟨_, _, rfl⟩
        | cons y A => exact ⟨_, _, rfl⟩
      have e4 : recs (A ++ [(s, t, r)]) = y.1 :: (recs (A ++ [(s, t, r)])).drop 1 := by
        rw [hM]; rfl
      have e5 : headValue (plain c A ++ [(if c.boots t then c.ev s else r, c.ev s)]) = c.ev y.1 := by
        cases A with
        | nil => simp at hM; rw [← hM.1]; rfl
        | cons y' A => simp at hM; rw [← hM.1]; rfl
      rw [e1, e2, e3, e4, List.map_cons, List.cons_append, List.zip_cons_cons, scanRev, ih, allReturns,
        List.map_cons]
      congr 1
      rw [lamReturn, e5]
      cases hP : plain c A ++ [(if c.boots t then c.ev s else r, c.ev s)] with
      | nil => simp at hP
      | cons p P =>
        rw [hP] at hsat
        simp only [allReturns, List.map_cons, List.headD_cons, Option.map_some, hsat, Option.bind_some]

/-- `_terminal_experience_iterative` computes the returns up to the end of the episode; the division by the
discount is harmless unless the discount is zero and the last value is predicted. -/
theorem iterative_eq {σ : Type} (c : Config σ) (hc : c.Valid) (A : List (Item σ)) (s : σ) (t : Nat) (r : Rat)
    (hg : c.gamma ≠ 0 ∨ c.boots t = false) (hl : c.lam ≠ none → A ≠ []) (H : Nat) (hH : A.length + 1 ≤ H) :
    iterative c (recs (A ++ [(s, t, r)])) (codes (A ++ [(s, t, r)])) (rews (A ++ [(s, t, r)])) =
      some ((allReturns c.gamma c.trace H (finished c (A ++ [(s, t, r)]))).map some) := by
  have g1 : (codes (A ++ [(s, t, r)])).getLast? = some t := by simp [codes]
  have g2 : (rews (A ++ [(s, t, r)])).getLast? = some r := by simp [rews]
  have g3 : (recs (A ++ [(s, t, r)])).getLast? = some s := by simp [recs]
  -- the initial value `w` of the scan
  have htv : ∃ w, (if c.predTerm then fdiv (c.ev s - r) c.gamma
      else if t = 1 then some 0 else fdiv (c.ev s - r) c.gamma) = some w ∧
      r + c.gamma * w = if c.boots t then c.ev s else r := by
    rcases hg with hg | hb
    · have hf : fdiv (c.ev s - r) c.gamma = some ((c.ev s - r) / c.gamma) := by simp [fdiv, hg]
      by_cases hp : c.predTerm = true
      · refine ⟨_, by rw [if_pos hp, hf], ?_⟩
        simp only [Config.boots, hp, Bool.true_or, if_true]
        grind
      · by_cases ht : t = 1
        · refine ⟨0, by rw [if_neg hp, if_pos ht], ?_⟩
          simp [Config.boots, hp, ht, Rat.add_zero]
        · refine ⟨_, by rw [if_neg hp, if_neg ht, hf], ?_⟩
          have : c.boots t = true := by simp [Config.boots, ht]
          simp only [this, if_true]
          grind
    · have hb' := hb
      simp only [Config.boots, Bool.or_eq_false_iff, bne_eq_false_iff_eq] at hb'
      refine ⟨0, by simp [hb'.1, hb'.2], ?_⟩
      simp [hb, Rat.add_zero]
  obtain ⟨w, hw1, hw2⟩ := htv
  unfold iterative
  rw [g1, g2, g3]
  simp only
  cases hlam : c.lam with
  | none =>
    have hpred : (if c.early = false then fdiv (-r) c.gamma else fdiv (c.V s - r) c.gamma) =
        fdiv (c.ev s - r) c.gamma := by
      cases he : c.early with
      | false => simp [Config.ev, he]; congr 1; grind
      | true => simp [Config.ev, he]
    simp only
    rw [hpred, hw1, scanRev_disc c s t r w A hw2 H hH]
    simp [Config.trace, hlam]
  | some l =>
    have he : c.early = true := hc (by simp [hlam])
    have hV : (fun s => c.V s) = fun s => c.ev s := by funext s; simp [Config.ev, he]
    have hA : A ≠ [] := hl (by simp [hlam])
    have hlast : ((List.drop 1 (recs (A ++ [(s, t, r)]))).map c.V).getLast? = some (c.ev s) := by
      cases A with
      | nil => exact absurd rfl hA
      | cons x A => simp [recs, Config.ev, he]
    simp only
    rw [hlast]
    simp only
    rw [hw1]
    have := scanRev_lam c l s t r w A hw2 H hH
    simp only [Config.trace, hlam, Option.getD_some]
    rw [← this]
    simp only [List.map_map, Function.comp_def, hV]


/-- `_terminal_experience_parallel` computes the same returns (for episodes longer than the horizon). -/
theorem parallel_eq {σ : Type} (c : Config σ) (hc : c.Valid) (A : List (Item σ)) (s : σ) (t : Nat) (r : Rat)
    (h : Nat) (h1 : 1 ≤ h) (hA : h < A.length + 1) :
    parallel c h (recs (A ++ [(s, t, r)])) (codes (A ++ [(s, t, r)])) (rews (A ++ [(s, t, r)])) =
      some (allReturns c.gamma c.trace h (finished c (A ++ [(s, t, r)]))) := by
  have g1 : (codes (A ++ [(s, t, r)])).getLast? = some t := by simp [codes]
  have g2 : (rews (A ++ [(s, t, r)])).getLast? = some r := by simp [rews]
  have g4 : (rews (A ++ [(s, t, r)])).length = A.length + 1 := by simp [rews]
  have g5 : (rews (A ++ [(s, t, r)])).dropLast = rews A := by simp [rews]
  -- the sequence padded with zeros
  have hfin : ∀ k, allReturns c.gamma c.trace h (finished c (A ++ [(s, t, r)])) =
      (List.range (A.length + 1)).map (fun t' => lamReturn c.gamma c.trace h
        ((finished c (A ++ [(s, t, r)]) ++ List.replicate k (0, 0)).drop t')) := by
    intro k
    have hlen := finished_length c (A ++ [(s, t, r)])
    simp only [List.length_append, List.length_cons, List.length_nil] at hlen
    apply List.ext_getElem?
    intro j
    by_cases hj : j < A.length + 1
    · rw [allReturns_getElem? _ _ _ _ _ (by omega), List.getElem?_map, List.getElem?_range hj, Option.map_some,
        List.drop_append_of_le_length (by omega), lamReturn_pad]
    · rw [List.getElem?_eq_none (by rw [allReturns_length]; omega), List.getElem?_eq_none (by simp; omega)]
  have hlenF : ∀ k, (finished c (A ++ [(s, t, r)]) ++ List.replicate k (0, 0)).length = A.length + 1 + k := by
    intro k
    simp [finished_length]
  have hfst : ∀ k, (finished c (A ++ [(s, t, r)]) ++ List.replicate k (0, 0)).map Prod.fst =
      rews A ++ [if c.boots t then c.ev s else r] ++ List.replicate k 0 := by
    intro k
    rw [finished_concat]
    simp [plain, rews, Function.comp_def]
  have hsnd : ∀ k, (finished c (A ++ [(s, t, r)]) ++ List.replicate k (0, 0)).map Prod.snd =
      (recs (A ++ [(s, t, r)])).map c.ev ++ List.replicate k 0 := by
    intro k
    rw [finished_concat]
    simp [plain, recs, Function.comp_def]
  unfold parallel
  rw [g1, g2]
  simp only [g4, g5]
  cases he : c.early with
  | false =>
    have hl : c.lam = none := by
      cases hl : c.lam with
      | none => rfl
      | some l => exact absurd (hc (by simp [hl])) (by simp [he])
    have hev : ∀ x, c.ev x = 0 := by intro x; simp [Config.ev, he]
    simp only [if_true, hl]
    have htv : (if c.predTerm = true then (0 : Rat) else if t = 1 then r else 0) =
        if c.boots t then c.ev s else r := by
      by_cases hp : c.predTerm = true
      · simp [Config.boots, hp, hev]
      · by_cases ht : t = 1
        · simp [Config.boots, hp, ht]
        · simp [Config.boots, hp, ht, hev]
    have hz : (List.replicate (A.length + 1) (0 : Rat)).take h = List.replicate h 0 := by
      rw [List.take_replicate]; congr 1; omega
    rw [htv, hz]
    have hfold := foldReturns_eq c (A.length + 1) h
      (finished c (A ++ [(s, t, r)]) ++ List.replicate h (0, 0))
      (rews A ++ [if c.boots t then c.ev s else r] ++ List.replicate h 0) [] (by rw [hlenF]; omega)
      (by
        intro j _
        rw [← List.getElem?_map, hfst h])
      (by simp [hl])
    rw [← hfin] at hfold
    rw [← hfold]
    congr 1
    unfold slice
    rw [List.map_take, List.map_drop, hsnd]
    apply List.ext_getElem?
    intro j
    simp only [List.getElem?_replicate, List.getElem?_take, List.getElem?_drop]
    by_cases hj : j < A.length + 1
    · simp only [hj, if_true]
      rw [List.getElem?_append]
      by_cases hj2 : h + j < ((recs (A ++ [(s, t, r)])).map c.ev).length
      · simp only [hj2, if_true, List.getElem?_map]
        simp only [List.length_map] at hj2
        rw [List.getElem?_eq_getElem hj2]
        simp [hev]
      · simp only [hj2, if_false]
        have l1 : ((recs (A ++ [(s, t, r)])).map c.ev).length = A.length + 1 := by simp [recs]
        rw [l1] at hj2 ⊢
        rw [List.getElem?_replicate, if_pos (by omega)]
    · simp [hj]
  | true =>
    have hev : (fun x => c.V x) = fun x => c.ev x := by funext x; simp [Config.ev, he]
    simp only [Bool.true_eq_false, if_false]
    have htv : (if c.predTerm = true then c.ev s else if t = 1 then r else c.ev s) =
        if c.boots t then c.ev s else r := by
      by_cases hp : c.predTerm = true
      · simp [Config.boots, hp]
      · by_cases ht : t = 1
        · simp [Config.boots, hp, ht]
        · simp [Config.boots, hp, ht]
    have hdrop : ∀ d, d < A.length + 1 → ((recs (A ++ [(s, t, r)])).drop d).map c.ev =
        ((recs A).map c.ev).drop d ++ [c.ev s] := by
      intro d hd
      have : (recs (A ++ [(s, t, r)])) = recs A ++ [s] := by simp [recs]
      rw [this, List.drop_append_of_le_length (by simp [recs]; omega)]
      simp
    have hreward : ∀ j, j + 1 < A.length + 1 + h →
        (rews A ++ [if c.boots t then c.ev s else r] ++ List.replicate (h - 1) 0)[j]? =
        ((finished c (A ++ [(s, t, r)]) ++ List.replicate h (0, 0))[j]?).map Prod.fst := by
      intro j hj
      rw [← List.getElem?_map, hfst h]
      generalize hX : rews A ++ [if c.boots t then c.ev s else r] = X
      have l1 : X.length = A.length + 1 := by rw [← hX]; simp [rews]
      rw [List.getElem?_append, List.getElem?_append]
      by_cases hj2 : j < X.length
      · rw [if_pos hj2, if_pos hj2]
      · rw [if_neg hj2, if_neg hj2, List.getElem?_replicate, List.getElem?_replicate, if_pos (by omega),
          if_pos (by omega)]
    have hslice : ∀ d, d ≤ A.length → d ≤ h → (slice (finished c (A ++ [(s, t, r)]) ++ List.replicate h (0, 0)) h
        (A.length + 1)).map Prod.snd =
        (((recs (A ++ [(s, t, r)])).drop d).map c.ev ++ List.replicate h 0).drop (h - d) := by
      intro d hd hdh
      unfold slice
      rw [List.map_take, List.map_drop, hsnd, List.take_of_length_le (by simp [recs]; omega)]
      rw [List.map_drop, ← List.drop_append_of_le_length (by simp [recs]; omega), List.drop_drop,
        show d + (h - d) = h by omega]
    cases hl : c.lam with
    | none =>
      simp only [hev]
      rw [show ((recs (A ++ [(s, t, r)])).drop h).map (fun x => c.ev x) =
        ((recs A).map c.ev).drop h ++ [c.ev s] from hdrop h hA, getLast?_concat']
      simp only
      rw [htv]
      rw [hfin h, ← foldReturns_eq c (A.length + 1) h
        (finished c (A ++ [(s, t, r)]) ++ List.replicate h (0, 0))
        (rews A ++ [if c.boots t then c.ev s else r] ++ List.replicate (h - 1) 0) _
        (by rw [hlenF]; omega) hreward (by simp [hl])]
      rw [hslice h (by omega) (by omega), Nat.sub_self, List.drop_zero, hdrop h hA]
    | some l =>
      simp only [hev]
      rw [show ((recs (A ++ [(s, t, r)])).drop 1).map (fun x => c.ev x) =
        ((recs A).map c.ev).drop 1 ++ [c.ev s] from hdrop 1 (by omega), getLast?_concat']
      simp only
      rw [htv, ← hdrop 1 (by omega)]
      rw [hfin h, ← foldReturns_eq c (A.length + 1) h
        (finished c (A ++ [(s, t, r)]) ++ List.replicate h (0, 0))
        (rews A ++ [if c.boots t then c.ev s else r] ++ List.replicate (h - 1) 0)
        (((recs (A ++ [(s, t, r)])).drop 1).map c.ev ++ List.replicate h 0)
        (by rw [hlenF]; omega) hreward (by
          intro _ j hj
          rw [← List.getElem?_map, hsnd, List.map_drop, ← List.drop_append_of_le_length (by simp [recs]),
            List.getElem?_drop]
          congr 1
          omega)]
      rw [hslice 1 (by omega) h1]

/-- `core_experience` on a finished episode. -/
theorem coreExperience_eq {σ : Type} (c : Config σ) (hc : c.Valid) (A : List (Item σ)) (s : σ) (t : Nat) (r : Rat)
    (hg : c.gamma ≠ 0 ∨ c.boots t = false) (hl : c.lam ≠ none → A ≠ []) (eh : Bool) (h : Nat) (h1 : 1 ≤ h)
    (H : Nat) (hH : H = if eh then A.length + 1 else h) :
    coreExperience c (if eh then none else some h) (recs (A ++ [(s, t, r)])) (codes (A ++ [(s, t, r)]))
      (rews (A ++ [(s, t, r)])) =
      some ((allReturns c.gamma c.trace H (finished c (A ++ [(s, t, r)]))).map some) := by
  have g4 : (rews (A ++ [(s, t, r)])).length = A.length + 1 := by simp [rews]
  unfold coreExperience
  rw [if_pos (by simp [recs, rews])]
  cases eh with
  | true =>
    simp only [if_true] at hH ⊢
    exact iterative_eq c hc A s t r hg hl H (by omega)
  | false =>
    simp only [Bool.false_eq_true, if_false] at hH ⊢
    rw [g4]
    by_cases hle : A.length + 1 ≤ h
    · rw [if_pos hle, hH]
      exact iterative_eq c hc A s t r hg hl h hle
    · rw [if_neg hle, hH, parallel_eq c hc A s t r h h1 (by omega)]
      rfl

end Verif.Returns
