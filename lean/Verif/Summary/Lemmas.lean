import Verif.Summary.Spec

/-! # Lemmas about summaries -/

namespace Verif.Summary

variable {ν γ : Type}

theorem lookup_cons_self (k : String) (v : γ) (l : List (String × γ)) : ((k, v) :: l).lookup k = some v := by
  rw [List.lookup_cons]; simp

theorem lookup_cons_ne {k n : String} (v : γ) (l : List (String × γ)) (h : k ≠ n) : ((n, v) :: l).lookup k = l.lookup k := by
  rw [List.lookup_cons]
  have : (k == n) = false := by simpa using h
  rw [this]

theorem assign_lookup (name : String) (v : γ) (k : String) : ∀ l : List (String × γ),
    (assign name v l).lookup k = if k = name then (l.lookup k).map fun _ => v else l.lookup k
  | [] => by rw [assign]; split <;> rfl
  | (n, w) :: l => by
    rw [assign]
    by_cases hn : n = name
    · rw [if_pos hn]
      by_cases hk : k = n
      · subst hk; rw [lookup_cons_self, lookup_cons_self, if_pos hn]; rfl
      · rw [lookup_cons_ne _ _ hk, lookup_cons_ne _ _ hk, if_neg (fun e => hk (e.trans hn.symm))]
    · rw [if_neg hn]
      by_cases hk : k = n
      · subst hk; rw [lookup_cons_self, lookup_cons_self, if_neg hn]
      · rw [lookup_cons_ne _ _ hk, lookup_cons_ne _ _ hk, assign_lookup]

theorem append_lookup (k n : String) (v : γ) : ∀ l : List (String × γ),
    (l ++ [(n, v)]).lookup k = match l.lookup k with | some w => some w | none => if k = n then some v else none
  | [] => by
    rw [List.nil_append]
    by_cases hk : k = n
    · subst hk; rw [lookup_cons_self]; show _ = if k = k then _ else _; rw [if_pos rfl]
    · rw [lookup_cons_ne _ _ hk]; show _ = if k = n then _ else _; rw [if_neg hk]; rfl
  | (n', w) :: l => by
    rw [List.cons_append]
    by_cases hk : k = n'
    · subst hk; rw [lookup_cons_self, lookup_cons_self]
    · rw [lookup_cons_ne _ _ hk, lookup_cons_ne _ _ hk, append_lookup]

/-- The counter of a call whose step is one of the units. -/
theorem unit_eq (c : Call ν) (u : Int) (h : c.counters.unit c.step = some u) : c.unit = u := by
  rw [Counters.unit] at h
  rw [Call.unit]
  split at h
  · rename_i e; rw [if_pos e]; exact Option.some.inj h
  · rename_i e; rw [if_neg e]
    split at h
    · rename_i e; rw [if_pos e]; exact Option.some.inj h
    · rename_i e; rw [if_neg e]
      split at h
      · exact Option.some.inj h
      · cases h

theorem write_eq (c : Call ν) : write c.name c.unit c.values = c.entries := by
  rw [write, Call.entries, List.zip_eq_zipWith, List.map_zipWith]

/-- A single call. -/
theorem summary_ok (enabled : Labels) (c : Call ν) (m : Module ν) (r : Module ν × List (Entry ν))
    (h : summary enabled c.counters c.label c.name c.values c.step m = .ok r) :
    (enabled.has c.label = false ∧ r = (m, [])) ∨
    (enabled.has c.label = true ∧ ∃ last, m.steps.lookup c.name.head = some last ∧
      (∀ k, r.1.steps.lookup k = if k = c.name.head then some (max last c.unit) else m.steps.lookup k) ∧
      r.2 = if c.unit > last then c.entries else []) := by
  rw [summary] at h
  split at h
  · cases h
  · rename_i u hu
    have hu := unit_eq c u hu
    subst hu
    split at h
    · rename_i he
      refine Or.inr ⟨he, ?_⟩
      split at h
      · cases h
      · rename_i last hl
        refine ⟨last, hl, ?_⟩
        split at h
        · rename_i hgt
          injection h with h
          subst h
          refine ⟨fun k => ?_, by rw [if_pos hgt]; exact write_eq c⟩
          dsimp only
          rw [assign_lookup]
          split
          · rename_i e; rw [e, hl]; show some c.unit = _; congr 1; omega
          · rfl
        · rename_i hgt
          injection h with h
          subst h
          refine ⟨fun k => ?_, by rw [if_neg hgt]⟩
          split
          · rename_i e; dsimp only; rw [e, hl]; congr 1; omega
          · rfl
    · rename_i he
      injection h with h
      exact Or.inl ⟨by simpa using he, h.symm⟩

/-- When a call is written. -/
theorem runCalls_written (enabled : Labels) : ∀ (cs : List (Call ν)) (m m' : Module ν) (outs : List (List (Entry ν))),
    runCalls enabled cs m = .ok (m', outs) → outs.length = cs.length ∧
    ∀ i c, cs[i]? = some c →
      (enabled.has c.label = false ∧ outs[i]? = some []) ∨
      (enabled.has c.label = true ∧ ∃ last, m.steps.lookup c.name.head = some last ∧
        ((last < c.unit ∧ (∀ d, Earlier enabled cs i c d → d.unit < c.unit) ∧ outs[i]? = some c.entries) ∨
         (¬(last < c.unit ∧ ∀ d, Earlier enabled cs i c d → d.unit < c.unit) ∧ outs[i]? = some [])))
  | [], m, m', outs, h => by
    rw [runCalls] at h
    injection h with h
    obtain ⟨-, rfl⟩ := Prod.mk.inj h
    exact ⟨rfl, fun i c hc => by simp at hc⟩
  | c0 :: cs, m, m', outs, h => by
    rw [runCalls] at h
    split at h
    · cases h
    · rename_i r hr
      split at h
      · cases h
      · rename_i rs hrs
        injection h with h
        obtain ⟨-, rfl⟩ := Prod.mk.inj h
        obtain ⟨hlen, ih⟩ := runCalls_written enabled cs r.1 rs.1 rs.2 hrs
        refine ⟨by rw [List.length_cons, List.length_cons, hlen], ?_⟩
        intro i c hc
        have h0 := summary_ok enabled c0 m r hr
        cases i with
        | zero =>
          rw [List.getElem?_cons_zero] at hc
          injection hc with hc
          subst hc
          rw [List.getElem?_cons_zero]
          rcases h0 with ⟨h1, h2⟩ | ⟨h1, last, h2, h3, h4⟩
          · exact Or.inl ⟨h1, by rw [h2]⟩
          · refine Or.inr ⟨h1, last, h2, ?_⟩
            by_cases hgt : c0.unit > last
            · refine Or.inl ⟨hgt, fun d hd => ?_, by rw [h4, if_pos hgt]⟩
              obtain ⟨j, hj, -⟩ := hd
              exact (Nat.not_lt_zero j hj).elim
            · exact Or.inr ⟨fun hh => hgt hh.1, by rw [h4, if_neg hgt]⟩
        | succ i =>
          rw [List.getElem?_cons_succ] at hc ⊢
          have hE : ∀ d, Earlier enabled (c0 :: cs) (i + 1) c d ↔
              (d = c0 ∧ c0.name.head = c.name.head ∧ enabled.has c0.label = true) ∨ Earlier enabled cs i c d := by
            intro d
            constructor
            · rintro ⟨j, hj, h1, h2, h3⟩
              cases j with
              | zero =>
                rw [List.getElem?_cons_zero] at h1
                injection h1 with h1
                subst h1
                exact Or.inl ⟨rfl, h2, h3⟩
              | succ j =>
                rw [List.getElem?_cons_succ] at h1
                exact Or.inr ⟨j, Nat.lt_of_succ_lt_succ hj, h1, h2, h3⟩
            · rintro (⟨rfl, h2, h3⟩ | ⟨j, hj, h1, h2, h3⟩)
              · exact ⟨0, Nat.succ_pos i, rfl, h2, h3⟩
              · exact ⟨j + 1, Nat.succ_lt_succ hj, by rw [List.getElem?_cons_succ]; exact h1, h2, h3⟩
          rcases ih i c hc with h | ⟨h1, last, h2, h3⟩
          · exact Or.inl h
          · refine Or.inr ⟨h1, ?_⟩
            rcases h0 with ⟨g1, g2⟩ | ⟨g1, last0, g2, g3, -⟩
            · refine ⟨last, by rw [g2] at h2; exact h2, ?_⟩
              have hE' : ∀ d, Earlier enabled (c0 :: cs) (i + 1) c d ↔ Earlier enabled cs i c d := fun d => by
                rw [hE]
                refine ⟨fun h => h.resolve_left fun hh => ?_, Or.inr⟩
                rw [g1] at hh
                cases hh.2.2
              rcases h3 with ⟨a, b, c⟩ | ⟨a, b⟩
              · exact Or.inl ⟨a, fun d hd => b d ((hE' d).mp hd), c⟩
              · exact Or.inr ⟨fun hh => a ⟨hh.1, fun d hd => hh.2 d ((hE' d).mpr hd)⟩, b⟩
            · rw [g3] at h2
              by_cases hk : c.name.head = c0.name.head
              · rw [if_pos hk] at h2
                injection h2 with h2
                refine ⟨last0, by rw [hk]; exact g2, ?_⟩
                rcases h3 with ⟨a, b, c'⟩ | ⟨a, b⟩
                · refine Or.inl ⟨by omega, fun d hd => ?_, c'⟩
                  rcases (hE d).mp hd with ⟨rfl, -⟩ | hd
                  · omega
                  · exact b d hd
                · refine Or.inr ⟨fun hh => a ⟨?_, fun d hd => hh.2 d ((hE d).mpr (Or.inr hd))⟩, b⟩
                  have h5 := hh.2 c0 ((hE c0).mpr (Or.inl ⟨rfl, hk.symm, g1⟩))
                  have h6 := hh.1
                  omega
              · rw [if_neg hk] at h2
                refine ⟨last, h2, ?_⟩
                have hE' : ∀ d, Earlier enabled (c0 :: cs) (i + 1) c d ↔ Earlier enabled cs i c d := fun d => by
                  rw [hE]
                  exact ⟨fun h => h.resolve_left fun hh => hk hh.2.1.symm, Or.inr⟩
                rcases h3 with ⟨a, b, c'⟩ | ⟨a, b⟩
                · exact Or.inl ⟨a, fun d hd => b d ((hE' d).mp hd), c'⟩
                · exact Or.inr ⟨fun hh => a ⟨hh.1, fun d hd => hh.2 d ((hE' d).mpr hd)⟩, b⟩

/-! ### Tracking -/

theorem track_ok (enabled : Labels) (label name : String) (v : ν) (m m' : Module ν) (h : track enabled label name v m = .ok m') :
    (∀ k, m'.tracked.lookup k = if enabled.has label && k = name then some v else m.tracked.lookup k) ∧ m'.tracked.map Prod.fst = m.tracked.map Prod.fst := by
  have hm : ∀ l : List (String × ν), (assign name v l).map Prod.fst = l.map Prod.fst := by
    intro l
    induction l with
    | nil => rfl
    | cons p l ih =>
      rw [assign]
      split
      · rfl
      · rw [List.map_cons, ih, List.map_cons]
  rw [track] at h
  split at h
  · rename_i he
    split at h
    · cases h
    · rename_i w hw
      injection h with h
      subst h
      refine ⟨fun k => ?_, hm _⟩
      dsimp only
      rw [assign_lookup, he, Bool.true_and]
      by_cases hk : k = name
      · rw [if_pos hk, if_pos (decide_eq_true hk), hk, hw]; rfl
      · rw [if_neg hk, if_neg (by simpa using hk)]
  · rename_i he
    injection h with h
    subst h
    have he : enabled.has label = false := by simpa using he
    exact ⟨fun k => by rw [he]; rfl, rfl⟩

theorem runTracks_ok (enabled : Labels) : ∀ (ts : List (String × String × ν)) (m m' : Module ν), runTracks enabled ts m = .ok m' →
    (∀ k, m'.tracked.lookup k = (lastTracked enabled ts k).or (m.tracked.lookup k)) ∧ m'.tracked.map Prod.fst = m.tracked.map Prod.fst
  | [], m, m', h => by
    rw [runTracks] at h
    injection h with h
    subst h
    exact ⟨fun k => rfl, rfl⟩
  | t :: ts, m, m', h => by
    rw [runTracks] at h
    split at h
    · cases h
    · rename_i m1 h1
      obtain ⟨ih, ih'⟩ := runTracks_ok enabled ts m1 m' h
      obtain ⟨h2, h3⟩ := track_ok enabled _ _ _ m m1 h1
      refine ⟨fun k => ?_, ih'.trans h3⟩
      rw [ih, h2, lastTracked, lastTracked, List.filter_cons]
      have hc : (enabled.has t.1 && decide (k = t.2.1)) = (enabled.has t.1 && decide (t.2.1 = k)) := by
        rw [show decide (k = t.2.1) = decide (t.2.1 = k) from decide_eq_decide.mpr ⟨Eq.symm, Eq.symm⟩]
      rw [hc]
      split
      · rename_i he
        rw [List.getLast?_cons]
        cases (ts.filter fun t => enabled.has t.1 && t.2.1 = k).getLast? with
        | none => rfl
        | some w => rfl
      · rfl

theorem insert_new (key : String) (v : ν) (l : List (String × ν)) (h : key ∉ l.map Prod.fst) : insert key v l = l ++ [(key, v)] := by
  have : l.lookup key = none := by
    induction l with
    | nil => rfl
    | cons p l ih =>
      rw [List.map_cons, List.mem_cons, not_or] at h
      obtain ⟨n, w⟩ := p
      rw [lookup_cons_ne _ _ h.1, ih h.2]
  rw [insert, this]
  rfl

theorem foldl_insert (l : List (String × ν)) : ∀ d : List (String × ν), ((d ++ l).map Prod.fst).Nodup → l.foldl (fun d p => insert p.1 p.2 d) d = d ++ l := by
  induction l with
  | nil => intro d _; rw [List.append_nil]; rfl
  | cons p l ih =>
    intro d h
    rw [List.foldl_cons, insert_new]
    · rw [ih _ (by rw [List.append_assoc]; exact h), List.append_assoc]; rfl
    · rw [List.map_append, List.map_cons, List.nodup_append] at h
      intro hm
      exact h.2.2 p.1 hm p.1 (List.mem_cons_self ..) rfl

theorem mem_lookup {l : List (String × γ)} (h : (l.map Prod.fst).Nodup) {k : String} {v : γ} : (k, v) ∈ l ↔ l.lookup k = some v := by
  induction l with
  | nil => exact ⟨nofun, nofun⟩
  | cons p l ih =>
    obtain ⟨n, w⟩ := p
    rw [List.map_cons, List.nodup_cons] at h
    rw [List.mem_cons]
    by_cases hk : k = n
    · subst hk
      rw [lookup_cons_self]
      constructor
      · rintro (e | e)
        · rw [(Prod.mk.inj e).2]
        · exact (h.1 (List.mem_map.mpr ⟨_, e, rfl⟩)).elim
      · intro e; injection e with e; rw [e]; exact Or.inl rfl
    · rw [lookup_cons_ne _ _ hk, ← ih h.2]
      exact ⟨fun e => e.resolve_left fun e => hk (Prod.mk.inj e).1, Or.inr⟩

/-! ### Registration -/

theorem registerTrackings_ok (enabled : Labels) (zeros : ν) : ∀ (ps : List (String × String)) (m : Module ν),
    (ps.map Prod.snd).Nodup → (∀ p ∈ ps, m.tracked.lookup p.2 = none) →
    ∃ m', registerTrackings enabled zeros ps m = .ok m' ∧
      ∀ p ∈ ps, enabled.has p.1 = true → m'.tracked.lookup p.2 = some zeros
  | [], m, _, _ => ⟨m, rfl, nofun⟩
  | p :: ps, m, hn, h => by
    rw [List.map_cons, List.nodup_cons] at hn
    have h1 := h p (List.mem_cons_self ..)
    have hstep : ∃ m1, registerTracking enabled p.1 p.2 zeros m = .ok m1 ∧ (∀ k, k ≠ p.2 → m1.tracked.lookup k = m.tracked.lookup k) ∧
        (enabled.has p.1 = true → m1.tracked.lookup p.2 = some zeros) := by
      rw [registerTracking, h1]
      dsimp only [Option.isSome]
      rw [if_neg (by simp)]
      split
      · refine ⟨_, rfl, fun k hk => ?_, fun _ => ?_⟩
        · dsimp only; rw [append_lookup]; cases m.tracked.lookup k with | none => simp [hk] | some w => rfl
        · dsimp only; rw [append_lookup, h1]; simp
      · rename_i he
        exact ⟨_, rfl, fun k hk => rfl, fun h => (he h).elim⟩
    obtain ⟨m1, e1, e2, e3⟩ := hstep
    obtain ⟨m', f1, f2⟩ := registerTrackings_ok enabled zeros ps m1 hn.2 (fun q hq => by
      rw [e2 q.2 (fun e => hn.1 (e ▸ List.mem_map.mpr ⟨q, hq, rfl⟩))]
      exact h q (List.mem_cons_of_mem _ hq))
    refine ⟨m', by rw [registerTrackings, e1]; exact f1, ?_⟩
    intro q hq he
    rw [List.mem_cons] at hq
    by_cases hq' : q ∈ ps
    · exact f2 q hq' he
    · have : q = p := hq.resolve_right hq'
      subst this
      have keep : ∀ (ps : List (String × String)) (m m' : Module ν), registerTrackings enabled zeros ps m = .ok m' → ∀ k v, m.tracked.lookup k = some v →
          m'.tracked.lookup k = some v := by
        intro ps
        induction ps with
        | nil => intro m m' h k v hv; rw [registerTrackings] at h; injection h with h; rw [← h]; exact hv
        | cons p ps ih =>
          intro m m' h k v hv
          rw [registerTrackings] at h
          split at h
          · cases h
          · rename_i m2 h2
            refine ih m2 m' h k v ?_
            rw [registerTracking] at h2
            split at h2
            · cases h2
            · split at h2
              · injection h2 with h2; rw [← h2]; dsimp only; rw [append_lookup, hv]
              · injection h2 with h2; rw [← h2]; exact hv
      exact keep ps m1 m' f1 _ _ (e3 he)

theorem registerSummaries_ok (enabled : Labels) : ∀ (ps : List (String × String)) (m : Module ν),
    (ps.map Prod.snd).Nodup → (∀ p ∈ ps, m.steps.lookup p.2 = none) →
    ∃ m', registerSummaries enabled ps m = .ok m' ∧
      (∀ p ∈ ps, enabled.has p.1 = true → m'.steps.lookup p.2 = some (-1)) ∧
      ∀ k, (∀ p ∈ ps, p.2 ≠ k) → m'.steps.lookup k = m.steps.lookup k
  | [], m, _, _ => ⟨m, rfl, nofun, fun _ _ => rfl⟩
  | p :: ps, m, hn, h => by
    rw [List.map_cons, List.nodup_cons] at hn
    have h1 := h p (List.mem_cons_self ..)
    have hstep : ∃ m1, registerSummary enabled p.1 ⟨p.2, []⟩ m = .ok m1 ∧ (∀ k, k ≠ p.2 → m1.steps.lookup k = m.steps.lookup k) ∧
        (enabled.has p.1 = true → m1.steps.lookup p.2 = some (-1)) := by
      rw [registerSummary, h1]
      dsimp only [Option.isSome]
      rw [if_neg (by simp)]
      split
      · refine ⟨_, rfl, fun k hk => ?_, fun _ => ?_⟩
        · dsimp only; rw [append_lookup]; cases m.steps.lookup k with | none => simp [hk] | some w => rfl
        · dsimp only; rw [append_lookup, h1]; simp
      · rename_i he
        exact ⟨_, rfl, fun k hk => rfl, fun h => (he h).elim⟩
    obtain ⟨m1, e1, e2, e3⟩ := hstep
    have hne : ∀ q ∈ ps, q.2 ≠ p.2 := fun q hq e => hn.1 (e ▸ List.mem_map.mpr ⟨q, hq, rfl⟩)
    obtain ⟨m', f1, f2, f3⟩ := registerSummaries_ok enabled ps m1 hn.2 (fun q hq => by
      rw [e2 q.2 (hne q hq)]
      exact h q (List.mem_cons_of_mem _ hq))
    refine ⟨m', by rw [registerSummaries, e1]; exact f1, ?_, ?_⟩
    · intro q hq he
      rw [List.mem_cons] at hq
      rcases hq with e | hq
      · subst e
        rw [f3 q.2 hne]
        exact e3 he
      · exact f2 q hq he
    · intro k hk
      rw [f3 k (fun q hq => hk q (List.mem_cons_of_mem _ hq)), e2 k (fun e => hk p (List.mem_cons_self ..) e.symm)]

end Verif.Summary
