import Verif.Returns.Compute
import Verif.Memory.Lemmas

/-! Helper lemmas: the act/observe buffers refine the specification `Ghost`. -/

namespace Verif.Returns

open Verif.Memory

theorem Agree.push {β : Type} {buf : List β} {cap p : Nat} {L : List β} (y : β) (hb : buf.length = cap)
    (hL : L.length < cap) (h : Agree buf cap p L) :
    Agree (buf.set ((p + L.length) % cap) y) cap p (L ++ [y]) := by
  intro i hi
  simp at hi
  by_cases hlt : i < L.length
  · have hne : (p + L.length) % cap ≠ (p + i) % cap := by
      have := mod_ne_of_lt (cap := cap) (p := p + i) (k := L.length - i) (by omega) (by omega)
      rwa [show p + i + (L.length - i) = p + L.length by omega] at this
    rw [List.getElem?_set_ne hne, List.getElem?_append_left hlt]
    exact h i hlt
  · have hi' : i = L.length := by omega
    rw [hi', List.getElem?_set_self (by rw [hb]; exact Nat.mod_lt _ (by omega))]
    simp

theorem scatter_push {β : Type} {cap : Nat} (ys : List β) :
    ∀ {buf : List β} {p : Nat} {L : List β}, buf.length = cap → L.length + ys.length ≤ cap →
    Agree buf cap p L →
    ∃ buf', scatter buf ((slots cap (p + L.length) ys.length).zip ys) = some buf' ∧ buf'.length = cap ∧
      Agree buf' cap p (L ++ ys) := by
  induction ys with
  | nil =>
    intro buf p L hb _ h
    exact ⟨buf, by simp [slots_zero, scatter], hb, by simpa using h⟩
  | cons y ys ih =>
    intro buf p L hb hL h
    simp at hL
    obtain ⟨buf', e, hl, ha⟩ := ih (buf := buf.set ((p + L.length) % cap) y) (p := p) (L := L ++ [y])
      (by simpa using hb) (by simp; omega) (Agree.push y hb (by omega) h)
    refine ⟨buf', ?_, hl, by simpa using ha⟩
    rw [List.length_cons, slots_succ, List.zip_cons_cons, scatter,
      if_pos (by rw [hb]; exact Nat.mod_lt _ (by omega))]
    simpa [Nat.add_assoc] using e

theorem Agree.take_eq {β : Type} {buf : List β} {cap : Nat} {L : List β} (hL : L.length ≤ cap)
    (h : Agree buf cap 0 L) : buf.take L.length = L := by
  apply List.ext_getElem?
  intro i
  rw [List.getElem?_take]
  by_cases hi : i < L.length
  · rw [if_pos hi, ← h i hi, Nat.zero_add, Nat.mod_eq_of_lt (by omega)]
  · rw [if_neg hi, List.getElem?_eq_none (by omega)]

theorem slots_eq_rangeFrom (cap p n : Nat) (h : p + n ≤ cap) : slots cap p n = rangeFrom p n := by
  unfold slots rangeFrom
  rw [List.map_map]
  apply List.map_congr_left
  intro i hi
  simp at hi
  simp only [Function.comp]
  exact Nat.mod_eq_of_lt (by omega)

theorem Agree.nil {β : Type} (buf : List β) (cap p : Nat) : Agree buf cap p [] := by
  intro i hi
  simp at hi

theorem Agree.take {β : Type} {buf : List β} {cap p : Nat} {L : List β} (n : Nat)
    (h : Agree buf cap p L) : Agree buf cap p (L.take n) := by
  intro i hi
  simp at hi
  rw [h i (by omega), List.getElem?_take, if_pos (by omega)]

/-- Relation between the buffers and the specification state. -/
structure Rep {σ : Type} (u : Setup) (hmax : Nat) (b : Buf σ) (g : Ghost σ) : Prop where
  lS : b.S.length = u.cap
  lT : b.T.length = u.cap
  lR : b.R.length = u.cap
  idx : b.index = g.cur.length + g.pend.length
  st : b.start = g.n
  out : b.out = g.out
  fit : g.cur.length + g.pend.length - g.n ≤ u.cap
  aS : Agree b.S u.cap g.n ((recs g.cur ++ g.pend).drop g.n)
  aT : Agree b.T u.cap g.n ((codes g.cur).drop g.n)
  aR : Agree b.R u.cap g.n ((rews g.cur).drop g.n)
  n0 : g.n = 0 ∨ (g.n < g.cur.length ∧ u.mode = .circular)
  hz : u.mode = .circular → g.cur.length ≤ g.n + hmax
  ab : u.mode = .agentBuffered → g.cur = []

theorem Rep.init {σ : Type} (u : Setup) (hmax : Nat) (z : σ) : Rep u hmax (Buf.init u z) Ghost.init where
  lS := by simp [Buf.init]
  lT := by simp [Buf.init]
  lR := by simp [Buf.init]
  idx := rfl
  st := rfl
  out := rfl
  fit := by simp [Ghost.init]
  aS := Agree.nil _ _ _
  aT := Agree.nil _ _ _
  aR := Agree.nil _ _ _
  n0 := Or.inl rfl
  hz := by simp [Ghost.init]
  ab := fun _ => rfl

theorem Rep.act {σ : Type} {u : Setup} {hmax : Nat} {b : Buf σ} {g : Ghost σ} (c : Config σ) (R : Rep u hmax b g)
    (s : σ) (hroom : g.cur.length + g.pend.length - g.n < u.cap) :
    ∃ b', b.act u s = some b' ∧ Rep u hmax b' (g.step c u (.act s)) := by
  have hn : g.n ≤ g.cur.length := by rcases R.n0 with h | h <;> omega
  have hlen : ((recs g.cur ++ g.pend).drop g.n).length = g.cur.length + g.pend.length - g.n := by
    simp [recs]
  have hi : (if u.mode = .circular then b.index % u.cap else b.index) = (g.n +
      ((recs g.cur ++ g.pend).drop g.n).length) % u.cap := by
    rw [hlen, R.idx, show g.n + (g.cur.length + g.pend.length - g.n) = g.cur.length + g.pend.length by omega]
    by_cases hm : u.mode = .circular
    · rw [if_pos hm]
    · rcases R.n0 with h | h
      · rw [if_neg hm, Nat.mod_eq_of_lt (by omega)]
      · exact absurd h.2 hm
  refine ⟨{ b with S := b.S.set ((g.n + ((recs g.cur ++ g.pend).drop g.n).length) % u.cap) s,
                   index := b.index + 1 }, ?_, ?_⟩
  · unfold Buf.act
    simp only
    rw [hi, scatter, if_pos (by rw [R.lS]; exact Nat.mod_lt _ (by omega)), scatter]
    rfl
  · have aS := Agree.push s R.lS (by rw [hlen]; exact hroom) R.aS
    exact
      { lS := by simp [R.lS]
        lT := R.lT
        lR := R.lR
        idx := by simp only [Ghost.step, List.length_append, List.length_cons, List.length_nil, R.idx]; omega
        st := R.st
        out := R.out
        fit := by simp only [Ghost.step, List.length_append, List.length_cons, List.length_nil]; omega
        aS := by
          have e : (recs g.cur ++ (g.pend ++ [s])).drop g.n = (recs g.cur ++ g.pend).drop g.n ++ [s] := by
            rw [← List.append_assoc, List.drop_append_of_le_length (by simp [recs]; omega)]
          simp only [Ghost.step]
          rw [e]
          exact aS
        aT := R.aT
        aR := R.aR
        n0 := R.n0
        hz := R.hz
        ab := R.ab }

theorem zip_recs {σ : Type} (pend : List σ) (batch : List (Nat × Rat)) (h : batch.length = pend.length) :
    recs (pend.zip batch) = pend := by
  unfold recs
  rw [List.map_fst_zip (by omega)]

theorem zip_codes {σ : Type} (pend : List σ) (batch : List (Nat × Rat)) (h : batch.length = pend.length) :
    codes (pend.zip batch) = batch.map Prod.fst := by
  unfold codes
  have : (fun x : σ × Nat × Rat => x.2.1) = Prod.fst ∘ Prod.snd := rfl
  rw [this, ← List.map_map, List.map_snd_zip (by omega)]

theorem zip_rews {σ : Type} (pend : List σ) (batch : List (Nat × Rat)) (h : batch.length = pend.length) :
    rews (pend.zip batch) = batch.map Prod.snd := by
  unfold rews
  have : (fun x : σ × Nat × Rat => x.2.2) = Prod.snd ∘ Prod.snd := rfl
  rw [this, ← List.map_map, List.map_snd_zip (by omega)]

theorem recs_append {σ : Type} (A B : List (Item σ)) : recs (A ++ B) = recs A ++ recs B := by simp [recs]
theorem codes_append {σ : Type} (A B : List (Item σ)) : codes (A ++ B) = codes A ++ codes B := by simp [codes]
theorem rews_append {σ : Type} (A B : List (Item σ)) : rews (A ++ B) = rews A ++ rews B := by simp [rews]
theorem recs_length {σ : Type} (A : List (Item σ)) : (recs A).length = A.length := by simp [recs]
theorem codes_length {σ : Type} (A : List (Item σ)) : (codes A).length = A.length := by simp [codes]
theorem rews_length {σ : Type} (A : List (Item σ)) : (rews A).length = A.length := by simp [rews]
theorem recs_drop {σ : Type} (A : List (Item σ)) (n : Nat) : (recs A).drop n = recs (A.drop n) := by simp [recs]
theorem codes_drop {σ : Type} (A : List (Item σ)) (n : Nat) : (codes A).drop n = codes (A.drop n) := by
  simp [codes]
theorem rews_drop {σ : Type} (A : List (Item σ)) (n : Nat) : (rews A).drop n = rews (A.drop n) := by simp [rews]
theorem recs_take {σ : Type} (A : List (Item σ)) (n : Nat) : (recs A).take n = recs (A.take n) := by simp [recs]
theorem codes_take {σ : Type} (A : List (Item σ)) (n : Nat) : (codes A).take n = codes (A.take n) := by
  simp [codes]

theorem records_attach {σ : Type} (L : List (Item σ)) (ret : List Rat) :
    records (recs L) (codes L) (ret.map some) = attach L ret := by
  induction L generalizing ret with
  | nil => simp [records, attach, recs]
  | cons x L ih =>
    cases ret with
    | nil => simp [records, attach, codes]
    | cons g ret =>
      have := ih ret
      simp only [records, attach, recs, codes, List.map_cons, List.zip_cons_cons, List.zipWith_cons_cons] at this ⊢
      rw [this]

theorem attach_drop {σ : Type} (L : List (Item σ)) (ret : List Rat) (n : Nat) :
    (attach L ret).drop n = attach (L.drop n) (ret.drop n) := by
  simp [attach, List.drop_zipWith]

theorem attach_take {σ : Type} (L : List (Item σ)) (ret : List Rat) (n : Nat) :
    (attach L ret).take n = attach (L.take n) (ret.take n) := by
  simp [attach, List.take_zipWith]

theorem finished_drop {σ : Type} (c : Config σ) (L : List (Item σ)) (n : Nat) (hn : n < L.length) :
    (finished c L).drop n = finished c (L.drop n) := by
  have e : L = L.take n ++ L.drop n := (List.take_append_drop n L).symm
  have hne : L.drop n ≠ [] := by
    intro h
    have := congrArg List.length h
    simp at this
    omega
  have h2 := finished_append c (L.take n) (L.drop n) hne
  rw [← e] at h2
  rw [h2, List.drop_append_of_le_length (by simp [plain_length]; omega), List.drop_eq_nil_of_le (by simp [plain_length]; omega)]
  rfl

theorem plain_drop {σ : Type} (c : Config σ) (L : List (Item σ)) (n : Nat) :
    (plain c L).drop n = plain c (L.drop n) := by simp [plain]

theorem isTerminal_iff {batch : List (Nat × Rat)} (h : isTerminal batch = true) :
    ∃ A t r, batch = A ++ [(t, r)] ∧ 0 < t := by
  rcases eq_nil_or_concat' batch with e | ⟨A, ⟨t, r⟩, e⟩
  · rw [e] at h; simp [isTerminal] at h
  · refine ⟨A, t, r, e, ?_⟩
    have h2 : ((0, 0) :: (A ++ [(t, r)])).getLastD (0, 0) = (t, r) := by
      rw [← List.cons_append, List.getLastD_eq_getLast?, getLast?_concat']
      rfl
    rw [e, isTerminal, h2] at h
    simpa using h

/-- Return computation at the end of an episode, from the handed-over position `n` on. -/
theorem core_of_terminal {σ : Type} (c : Config σ) (hc : c.Valid) (cur : List (Item σ)) (n : Nat)
    (hn : n < cur.length) (eh : Bool) (h : Nat) (h1 : 1 ≤ h) (hne : eh = true → n = 0)
    (t : Nat) (ht : (codes cur).getLast? = some t) (hg : c.gamma ≠ 0 ∨ c.boots t = false)
    (hl : c.lam ≠ none → 2 ≤ cur.length - n) :
    ∃ ret, coreExperience c (if eh then none else some h) (recs (cur.drop n)) (codes (cur.drop n))
      (rews (cur.drop n)) = some ret ∧
      records (recs (cur.drop n)) (codes (cur.drop n)) ret =
        (attach cur (allReturns c.gamma c.trace (if eh then cur.length else h) (finished c cur))).drop n := by
  rcases eq_nil_or_concat' (cur.drop n) with e | ⟨A, ⟨s, t', r⟩, e⟩
  · have := congrArg List.length e
    simp at this
    omega
  · have hlen := congrArg List.length e
    simp at hlen
    have htt : t' = t := by
      have h2 : (codes (cur.drop n)).getLast? = some t := by
        rw [← codes_drop, List.getLast?_drop, if_neg (by rw [codes_length]; omega), ht]
      rw [e] at h2
      simpa [codes] using h2
    subst htt
    have hcore := coreExperience_eq c hc A s t' r hg
      (by
        intro hl'
        have := hl hl'
        intro hA
        rw [hA] at hlen
        simp at hlen
        omega) eh h h1 _ rfl
    rw [← e] at hcore
    refine ⟨_, hcore, ?_⟩
    rw [records_attach, attach_drop, allReturns_drop, finished_drop c cur n hn]
    cases eh with
    | true =>
      have h0 := hne rfl
      subst h0
      simp only [if_true]
      rw [show A.length + 1 = cur.length by omega]
    | false => rfl


theorem Rep.observe {σ : Type} {u : Setup} {hmax : Nat} {b : Buf σ} {g : Ghost σ} (c : Config σ) (hc : c.Valid)
    (R : Rep u hmax b g) (h : Nat) (batch : List (Nat × Rat)) (hb : batch.length = g.pend.length) (h1 : 1 ≤ h)
    (hh : u.mode = .circular → h ≤ hmax) (hu : u.mode = .circular → u.episodeHorizon = false)
    (hab : u.mode = .agentBuffered → isTerminal batch = true ∨ batch = [])
    (hreg : Regular c g (.observe h batch)) :
    ∃ b', b.observe c u h batch = some b' ∧ Rep u hmax b' (g.step c u (.observe h batch)) := by
  have hn : g.n ≤ g.cur.length := by rcases R.n0 with h | h <;> omega
  have hidx : ¬ b.index < batch.length := by rw [R.idx]; omega
  have hzl : (g.pend.zip batch).length = g.pend.length := by simp [hb]
  have hcl : (g.cur ++ g.pend.zip batch).length = g.cur.length + g.pend.length := by simp [hb]
  have eS : recs g.cur ++ g.pend = recs (g.cur ++ g.pend.zip batch) := by
    rw [recs_append, zip_recs _ _ hb]
  have eT : codes g.cur ++ batch.map Prod.fst = codes (g.cur ++ g.pend.zip batch) := by
    rw [codes_append, zip_codes _ _ hb]
  have eR : rews g.cur ++ batch.map Prod.snd = rews (g.cur ++ g.pend.zip batch) := by
    rw [rews_append, zip_rews _ _ hb]
  have aS := R.aS
  rw [eS, recs_drop] at aS
  have fit := R.fit
  -- facts about a terminal batch
  have hterm : isTerminal batch = true → ∃ t, g.n < (g.cur ++ g.pend.zip batch).length ∧
      (codes (g.cur ++ g.pend.zip batch)).getLast? = some t ∧ (c.gamma ≠ 0 ∨ c.boots t = false) ∧
      (c.lam ≠ none → 2 ≤ (g.cur ++ g.pend.zip batch).length - g.n) := by
    intro ht
    obtain ⟨A, t, r, e, _⟩ := isTerminal_iff ht
    have hpos : 0 < batch.length := by rw [e]; simp
    obtain ⟨hg, hl⟩ := hreg ht
    refine ⟨t, by omega, ?_, ?_, ?_⟩
    · rw [← eT, e]
      simp
    · rw [e] at hg
      simpa [List.getLastD_eq_getLast?] using hg
    · intro hl'
      have := hl hl'
      rw [hcl]
      rcases R.n0 with h0 | h0 <;> omega
  unfold Buf.observe
  simp only
  rw [if_neg hidx]
  cases hm : u.mode with
  | agentBuffered =>
    have hcur := R.ab hm
    have hn0 : g.n = 0 := by
      rcases R.n0 with h | h
      · exact h
      · rw [hm] at h; exact absurd h.2 (by simp)
    cases ht : isTerminal batch with
    | true =>
      simp only [if_true]
      obtain ⟨t, hlt, hlast, hg, hl⟩ := hterm ht
      obtain ⟨ret, e1, e2⟩ := core_of_terminal c hc (g.cur ++ g.pend.zip batch) g.n hlt u.episodeHorizon h h1
        (fun _ => hn0) t hlast hg hl
      rw [hn0] at e1 e2 aS
      simp only [List.drop_zero] at e1 e2 aS
      have hS : b.S.take b.index = recs (g.cur ++ g.pend.zip batch) := by
        have := Agree.take_eq (by rw [recs_length, hcl]; omega) aS
        rwa [recs_length, hcl, ← R.idx] at this
      have hT : batch.map Prod.fst = codes (g.cur ++ g.pend.zip batch) := by rw [← eT, hcur]; rfl
      have hR : batch.map Prod.snd = rews (g.cur ++ g.pend.zip batch) := by rw [← eR, hcur]; rfl
      rw [hS, hT, hR, e1, Option.map_some]
      refine ⟨_, rfl, ?_⟩
      rw [e2]
      simp only [Ghost.step, ht, if_true]
      exact
        { lS := R.lS, lT := R.lT, lR := R.lR, idx := rfl, st := by rw [R.st, hn0], out := by simp [R.out, hn0]
          fit := by simp, aS := Agree.nil _ _ _, aT := Agree.nil _ _ _, aR := Agree.nil _ _ _
          n0 := Or.inl rfl, hz := by simp, ab := fun _ => rfl }
    | false =>
      have hbe : batch = [] := by
        rcases hab hm with h | h
        · rw [ht] at h; exact absurd h (by simp)
        · exact h
      have hpe : g.pend = [] := by
        rw [hbe] at hb; exact List.length_eq_zero_iff.mp hb.symm
      simp only [Bool.false_eq_true, if_false]
      rw [if_pos (by simp [hbe])]
      refine ⟨_, rfl, ?_⟩
      have hst : g.step c u (.observe h batch) = g := by
        obtain ⟨out, done, cur, n, pend⟩ := g
        simp only at hcur hn0 hpe
        simp [Ghost.step, ht, hm, hcur, hn0, hpe, attach]
      rw [hst]
      exact R
  | episodeBuffered =>
    have hn0 : g.n = 0 := by
      rcases R.n0 with h | h
      · exact h
      · rw [hm] at h; exact absurd h.2 (by simp)
    have aT := R.aT
    have aR := R.aR
    rw [hn0] at aS aT aR
    simp only [List.drop_zero] at aS aT aR
    have hsub : b.index - batch.length = g.cur.length := by rw [R.idx]; omega
    cases ht : isTerminal batch with
    | true =>
      simp only [if_true]
      obtain ⟨t, hlt, hlast, hg, hl⟩ := hterm ht
      obtain ⟨ret, e1, e2⟩ := core_of_terminal c hc (g.cur ++ g.pend.zip batch) g.n hlt u.episodeHorizon h h1
        (fun _ => hn0) t hlast hg hl
      rw [hn0] at e1 e2
      simp only [List.drop_zero] at e1 e2
      have hS : b.S.take b.index = recs (g.cur ++ g.pend.zip batch) := by
        have := Agree.take_eq (by rw [recs_length, hcl]; omega) aS
        rwa [recs_length, hcl, ← R.idx] at this
      have hT : b.T.take (b.index - batch.length) ++ batch.map Prod.fst = codes (g.cur ++ g.pend.zip batch) := by
        have := Agree.take_eq (by rw [codes_length]; omega) aT
        rw [codes_length] at this
        rw [hsub, this, eT]
      have hR : b.R.take (b.index - batch.length) ++ batch.map Prod.snd = rews (g.cur ++ g.pend.zip batch) := by
        have := Agree.take_eq (by rw [rews_length]; omega) aR
        rw [rews_length] at this
        rw [hsub, this, eR]
      rw [hS, hT, hR, e1, Option.map_some]
      refine ⟨_, rfl, ?_⟩
      rw [e2]
      simp only [Ghost.step, ht, if_true]
      exact
        { lS := R.lS, lT := R.lT, lR := R.lR, idx := rfl, st := by rw [R.st, hn0], out := by simp [R.out, hn0]
          fit := by simp, aS := Agree.nil _ _ _, aT := Agree.nil _ _ _, aR := Agree.nil _ _ _
          n0 := Or.inl rfl, hz := by simp, ab := fun _ => rfl }
    | false =>
      simp only [Bool.false_eq_true, if_false]
      obtain ⟨T', hT1, hT2, hT3⟩ := scatter_push (batch.map Prod.fst) R.lT (by simp [codes_length]; omega) aT
      obtain ⟨R', hR1, hR2, hR3⟩ := scatter_push (batch.map Prod.snd) R.lR (by simp [rews_length]; omega) aR
      rw [eT] at hT3
      rw [eR] at hR3
      rw [codes_length, List.length_map, Nat.zero_add, slots_eq_rangeFrom _ _ _ (by omega)] at hT1
      rw [rews_length, List.length_map, Nat.zero_add, slots_eq_rangeFrom _ _ _ (by omega)] at hR1
      rw [hsub, hT1, Option.bind_some, hR1, Option.map_some]
      refine ⟨_, rfl, ?_⟩
      simp only [Ghost.step, ht, Bool.false_eq_true, if_false, hm]
      exact
        { lS := R.lS, lT := hT2, lR := hR2
          idx := by simp only [hcl, R.idx, List.length_nil]; omega
          st := by simp [R.st, hn0]
          out := by simp [R.out, hn0]
          fit := by simp only [hcl, List.length_nil]; omega
          aS := by simpa using aS
          aT := by simpa using hT3
          aR := by simpa using hR3
          n0 := Or.inl (by simp)
          hz := by simp [hm]
          ab := by simp [hm] }
  | circular =>
    have heh := hu hm
    have aT := R.aT
    have aR := R.aR
    cases ht : isTerminal batch with
    | true =>
      simp only [if_true]
      obtain ⟨t, hlt, hlast, hg, hl⟩ := hterm ht
      obtain ⟨ret, e1, e2⟩ := core_of_terminal c hc (g.cur ++ g.pend.zip batch) g.n hlt u.episodeHorizon h h1
        (by simp [heh]) t hlast hg hl
      have hS := gather_slots aS
      rw [recs_length, List.length_drop, hcl, ← R.idx] at hS
      have hT := gather_slots aT
      rw [codes_drop, codes_length, List.length_drop, show g.cur.length = b.index - batch.length by rw [R.idx]; omega]
        at hT
      have hR := gather_slots aR
      rw [rews_drop, rews_length, List.length_drop, show g.cur.length = b.index - batch.length by rw [R.idx]; omega]
        at hR
      have eT' : codes (g.cur.drop g.n) ++ batch.map Prod.fst = codes ((g.cur ++ g.pend.zip batch).drop g.n) := by
        rw [List.drop_append_of_le_length hn, codes_append, zip_codes _ _ hb]
      have eR' : rews (g.cur.drop g.n) ++ batch.map Prod.snd = rews ((g.cur ++ g.pend.zip batch).drop g.n) := by
        rw [List.drop_append_of_le_length hn, rews_append, zip_rews _ _ hb]
      rw [R.st, hS, Option.bind_some, hT, Option.bind_some, hR, Option.bind_some, eT', eR', e1, Option.map_some]
      refine ⟨_, rfl, ?_⟩
      rw [e2]
      simp only [Ghost.step, ht, if_true]
      exact
        { lS := R.lS, lT := R.lT, lR := R.lR, idx := rfl, st := rfl, out := by simp [R.out]
          fit := by simp, aS := Agree.nil _ _ _, aT := Agree.nil _ _ _, aR := Agree.nil _ _ _
          n0 := Or.inl rfl, hz := by simp, ab := fun _ => rfl }
    | false =>
      simp only [Bool.false_eq_true, if_false]
      rw [codes_drop] at aT
      rw [rews_drop] at aR
      obtain ⟨T', hT1, hT2, hT3⟩ := scatter_push (batch.map Prod.fst) R.lT (by simp [codes_length]; omega) aT
      obtain ⟨R', hR1, hR2, hR3⟩ := scatter_push (batch.map Prod.snd) R.lR (by simp [rews_length]; omega) aR
      have eT' : codes (g.cur.drop g.n) ++ batch.map Prod.fst = codes ((g.cur ++ g.pend.zip batch).drop g.n) := by
        rw [List.drop_append_of_le_length hn, codes_append, zip_codes _ _ hb]
      have eR' : rews (g.cur.drop g.n) ++ batch.map Prod.snd = rews ((g.cur ++ g.pend.zip batch).drop g.n) := by
        rw [List.drop_append_of_le_length hn, rews_append, zip_rews _ _ hb]
      rw [eT'] at hT3
      rw [eR'] at hR3
      rw [codes_length, List.length_map, List.length_drop,
        show g.n + (g.cur.length - g.n) = b.index - batch.length by rw [R.idx]; omega] at hT1
      rw [rews_length, List.length_map, List.length_drop,
        show g.n + (g.cur.length - g.n) = b.index - batch.length by rw [R.idx]; omega] at hR1
      rw [hT1, Option.bind_some, hR1, Option.bind_some]
      have hh' := hh hm
      by_cases hle : b.index - b.start ≤ h
      · rw [if_pos hle]
        refine ⟨_, rfl, ?_⟩
        rw [R.idx, R.st] at hle
        have hmx : max g.n ((g.cur ++ g.pend.zip batch).length - h) = g.n := by rw [hcl]; omega
        simp only [Ghost.step, ht, Bool.false_eq_true, if_false, hm, if_true, hmx]
        exact
          { lS := R.lS, lT := hT2, lR := hR2
            idx := by simp only [hcl, R.idx, List.length_nil]; omega
            st := R.st
            out := by simp [R.out]
            fit := by simp only [hcl, List.length_nil]; omega
            aS := by simpa [recs_drop] using aS
            aT := by simpa [codes_drop] using hT3
            aR := by simpa [rews_drop] using hR3
            n0 := by
              rcases R.n0 with h0 | h0
              · exact Or.inl h0
              · exact Or.inr ⟨by simp only [hcl]; omega, hm⟩
            hz := by intro _; simp only [hcl]; omega
            ab := by simp [hm] }
      · rw [if_neg hle]
        rw [R.idx, R.st] at hle
        have hS := gather_slots aS
        rw [recs_length, List.length_drop, hcl, ← R.idx] at hS
        have hRg := gather_slots hR3
        rw [rews_length, List.length_drop, hcl, ← R.idx] at hRg
        have hret := nonterminalReturns_eq c hc h (b.index - g.n - h) ((g.cur ++ g.pend.zip batch).drop g.n) h1
          (by rw [List.length_drop, hcl, R.idx]; omega)
        have hnl : b.index - g.n - h ≤ ((g.cur ++ g.pend.zip batch).drop g.n).length := by
          rw [List.length_drop, hcl, R.idx]; omega
        have hS2 := gather_slots (Agree.take (b.index - g.n - h) aS)
        rw [recs_take, recs_length, List.length_take, Nat.min_eq_left hnl] at hS2
        have hT2' := gather_slots (Agree.take (b.index - g.n - h) hT3)
        rw [codes_take, codes_length, List.length_take, Nat.min_eq_left hnl] at hT2'
        rw [R.st, hS, Option.bind_some, hRg, Option.bind_some, hret, Option.bind_some, hS2, Option.bind_some, hT2',
          Option.map_some]
        refine ⟨_, rfl, ?_⟩
        have hmx : max g.n ((g.cur ++ g.pend.zip batch).length - h) = g.n + (b.index - g.n - h) := by
          rw [hcl, R.idx]; omega
        have hsub : g.n + (b.index - g.n - h) - g.n = b.index - g.n - h := by omega
        simp only [Ghost.step, ht, Bool.false_eq_true, if_false, hm, if_true, hmx, hsub]
        have hout : records (recs (((g.cur ++ g.pend.zip batch).drop g.n).take (b.index - g.n - h)))
            (codes (((g.cur ++ g.pend.zip batch).drop g.n).take (b.index - g.n - h)))
            ((((allReturns c.gamma c.trace h (plain c ((g.cur ++ g.pend.zip batch).drop g.n))).take
              (b.index - g.n - h))).map some) =
            ((attach (g.cur ++ g.pend.zip batch) (allReturns c.gamma c.trace h
              (plain c (g.cur ++ g.pend.zip batch)))).drop g.n).take (b.index - g.n - h) := by
          rw [records_attach, ← plain_drop, ← allReturns_drop, ← attach_take, ← attach_drop]
        rw [hout]
        exact
          { lS := R.lS, lT := hT2, lR := hR2
            idx := by simp only [hcl, R.idx, List.length_nil]; omega
            st := rfl
            out := by simp [R.out]
            fit := by simp only [hcl, List.length_nil]; omega
            aS := by
              have := Agree.drop (b.index - g.n - h) aS
              simpa [recs_drop] using this
            aT := by
              have := Agree.drop (b.index - g.n - h) hT3
              simpa [codes_drop] using this
            aR := by
              have := Agree.drop (b.index - g.n - h) hR3
              simpa [rews_drop] using this
            n0 := Or.inr ⟨by simp only [hcl, R.idx]; omega, hm⟩
            hz := by intro _; simp only [hcl, R.idx]; omega
            ab := by simp [hm] }

/-- Every allowed history of calls runs without an error and refines the specification. -/
theorem run_refines {σ : Type} (c : Config σ) (hc : c.Valid) (bo hmax met : Option Nat) (par : Nat) (u : Setup)
    (hu : Setup.ofOptions bo hmax met par = some u) (ops : List (Op σ)) :
    ∀ (b : Buf σ) (g : Ghost σ), Rep u (hmax.getD 0) b g → Always c u (Allowed bo hmax met) g ops →
    Always c u (Regular c) g ops →
    ∃ b', b.run c u ops = some b' ∧ Rep u (hmax.getD 0) b' (g.run c u ops) := by
  induction ops with
  | nil =>
    intro b g R _ _
    exact ⟨b, rfl, R⟩
  | cons o ops ih =>
    intro b g R ha hr
    obtain ⟨ha1, ha2⟩ := ha
    obtain ⟨hr1, hr2⟩ := hr
    have hstep : ∃ b', b.step c u o = some b' ∧ Rep u (hmax.getD 0) b' (g.step c u o) := by
      cases o with
      | act s =>
        refine Rep.act c R s ?_
        obtain ⟨hB, hM⟩ := ha1
        unfold Setup.ofOptions at hu
        cases bo with
        | none =>
          cases met with
          | none => simp at hu
          | some M =>
            have := hM M rfl
            simp at hu
            rw [← hu]
            simp only
            omega
        | some B =>
          have hB := hB B rfl
          cases hmax with
          | none =>
            cases met with
            | none => simp at hu
            | some M =>
              have := hM M rfl
              simp at hu
              rw [← hu]
              simp only
              omega
          | some hm =>
            by_cases hp : par > 1
            · cases met with
              | none => simp [hp] at hu
              | some M =>
                have := hM M rfl
                simp [hp] at hu
                rw [← hu]
                simp only
                omega
            · have hz := R.hz
              cases met with
              | none =>
                simp [hp] at hu
                rw [← hu] at hz ⊢
                have hz := hz rfl
                simp only [Option.getD_some] at hz ⊢
                omega
              | some M =>
                have := hM M rfl
                simp [hp] at hu
                rw [← hu] at hz ⊢
                have hz := hz rfl
                simp only [Option.getD_some] at hz ⊢
                omega
      | observe h batch =>
        obtain ⟨hb, h1, hm, hab⟩ := ha1
        have hcirc : u.mode = .circular → (∃ hmv, hmax = some hmv) ∧ u.episodeHorizon = false := by
          intro hmode
          unfold Setup.ofOptions at hu
          cases bo with
          | none =>
            cases met with
            | none => simp at hu
            | some M => simp at hu; rw [← hu] at hmode; simp at hmode
          | some B =>
            cases hmax with
            | none =>
              cases met with
              | none => simp at hu
              | some M => simp at hu; rw [← hu] at hmode; simp at hmode
            | some hmv =>
              by_cases hp : par > 1
              · cases met with
                | none => simp [hp] at hu
                | some M => simp [hp] at hu; rw [← hu] at hmode; simp at hmode
              · simp [hp] at hu
                rw [← hu]
                exact ⟨⟨hmv, rfl⟩, rfl⟩
        refine Rep.observe c hc R h batch hb h1 ?_ (fun hmode => (hcirc hmode).2) ?_ hr1
        · intro hmode
          obtain ⟨⟨hmv, e⟩, _⟩ := hcirc hmode
          rw [e]
          exact hm hmv e
        · intro hmode
          apply hab
          cases bo with
          | none => rfl
          | some B =>
            unfold Setup.ofOptions at hu
            cases hmax with
            | none =>
              cases met with
              | none => simp at hu
              | some M => simp at hu; rw [← hu] at hmode; simp at hmode
            | some hmv =>
              by_cases hp : par > 1
              · cases met with
                | none => simp [hp] at hu
                | some M => simp [hp] at hu; rw [← hu] at hmode; simp at hmode
              · simp [hp] at hu
                rw [← hu] at hmode
                simp at hmode
    obtain ⟨b', e, R'⟩ := hstep
    obtain ⟨b'', e', R''⟩ := ih b' _ R' ha2 hr2
    refine ⟨b'', ?_, R''⟩
    show (b.step c u o >>= fun b => b.run c u ops) = some b''
    rw [e]
    exact e'

end Verif.Returns
