import Verif.Utils.Signature

/-! # Helper lemmas for argument flattening -/

namespace Verif.Utils.Signature

open Verif.Utils.Nested

variable {S V : Type} {compat : S → V → Bool}

mutual
theorem skeleton_eq (t : Tree S) (x : Tree V) (h : Matches compat t x) (hl : t.len = 0) : skeleton t = x := by
  match t, x with
  | .leaf s, x => simp [Tree.len] at hl
  | .sing s, .sing v => simp only [skeleton, skeleton_eq s v h hl]
  | .node es, .node fs => simp only [skeleton, skeletonE_eq es fs h hl]
  | .sing _, .leaf _ => exact h.elim
  | .sing _, .node _ => exact h.elim
  | .node _, .leaf _ => exact h.elim
  | .node _, .sing _ => exact h.elim
theorem skeletonE_eq (es : Entries S) (fs : Entries V) (h : MatchesE compat es fs) (hl : es.len = 0) :
    skeletonE es = fs := by
  match es, fs with
  | .nil, .nil => rfl
  | .nil, .cons .. => exact h.elim
  | .cons .., .nil => exact h.elim
  | .cons k t es, .cons k' x fs =>
    obtain ⟨rfl, h1, h2⟩ := h
    simp only [Entries.len] at hl
    simp only [skeletonE, skeleton_eq t x h1 (by omega), skeletonE_eq es fs h2 (by omega)]
end

mutual
theorem matches_skeleton (t : Tree S) (hl : t.len = 0) : Matches compat t (skeleton t : Tree V) := by
  match t with
  | .leaf s => simp [Tree.len] at hl
  | .sing s => exact matches_skeleton s hl
  | .node es => exact matches_skeletonE es hl
theorem matches_skeletonE (es : Entries S) (hl : es.len = 0) : MatchesE compat es (skeletonE es : Entries V) := by
  match es with
  | .nil => trivial
  | .cons k t es =>
    simp only [Entries.len] at hl
    exact ⟨rfl, matches_skeleton t (by omega), matches_skeletonE es (by omega)⟩
end

/-- The dictionary `kw` holds the entries `fs` (among others). -/
def Holds (kw : Tree V) : Entries V → Prop
  | .nil => True
  | .cons k x fs => kw.get [k] = some x ∧ Holds kw fs

theorem pick_of_get {kw : Tree V} {k : String} {x : Tree V} (h : kw.get [k] = some x) (arg : Option (Tree V)) :
    pick kw k arg = some x := by
  have hh : kw.has [k] = some true := by
    have := Tree.rec (motive_1 := fun t => (t.get [k]).isSome = true → t.has [k] = some true)
      (motive_2 := fun es => (es.get k []).isSome = true → es.has k [] = some true)
      (fun _ h => by simp [Tree.get] at h)
      (fun t ih h => by
        cases t with
        | leaf _ => simp [Tree.get] at h
        | sing t => rw [Tree.has]; · exact ih (by simpa [Tree.get] using h)
                    all_goals simp
        | node es => rw [Tree.has]; · exact ih (by simpa [Tree.get] using h)
                     all_goals simp)
      (fun es ih h => by simpa [Tree.has] using ih (by simpa [Tree.get] using h))
      (fun h => by simp [Entries.get] at h)
      (fun k' t es _ ih h => by
        simp only [Entries.has, Entries.get] at *
        split
        · simp
        · rename_i hk; simp only [hk, if_false] at h; exact ih h)
      kw
    exact this (by rw [h]; rfl)
  simp [pick, hh, h]

theorem get_tail (fs : Entries V) (k : String) (x : Tree V) (j : String) (hj : k ≠ j) :
    (Entries.cons k x fs).get j [] = fs.get j [] := by simp [Entries.get, hj]

/-- Unique names of the signature, transferred to matching arguments. -/
theorem find_none (es : Entries S) (fs : Entries V) (h : MatchesE compat es fs) (k : String)
    (hn : es.find k = none) : fs.find k = none := by
  match es, fs with
  | .nil, .nil => rfl
  | .nil, .cons .. => exact h.elim
  | .cons .., .nil => exact h.elim
  | .cons j t es, .cons j' x fs =>
    obtain ⟨rfl, h1, h2⟩ := h
    simp only [Entries.find] at hn ⊢
    split at hn
    · simp at hn
    · rename_i hj; simp only [hj, if_false]; exact find_none es fs h2 k hn

theorem holds_mono (fs gs : Entries V) (k : String) (x : Tree V) (hn : gs.find k = none)
    (h : Holds (.node fs) gs) : Holds (.node (.cons k x fs)) gs := by
  match gs with
  | .nil => trivial
  | .cons j y gs =>
    simp only [Entries.find] at hn
    split at hn
    · simp at hn
    · rename_i hj
      obtain ⟨h1, h2⟩ := h
      refine ⟨?_, holds_mono fs gs k x hn h2⟩
      simp only [Tree.get] at h1 ⊢
      rw [get_tail fs k x j (Ne.symm hj)]; exact h1

theorem holds_self (es : Entries S) (fs : Entries V) (h : MatchesE compat es fs) (hw : WfE es) :
    Holds (.node fs) fs := by
  match es, fs with
  | .nil, .nil => trivial
  | .nil, .cons .. => exact h.elim
  | .cons .., .nil => exact h.elim
  | .cons k t es, .cons k' x fs =>
    obtain ⟨rfl, h1, h2⟩ := h
    obtain ⟨w1, w2, w3⟩ := hw
    exact ⟨by simp [Tree.get, Entries.get], holds_mono fs fs k x (find_none es fs h2 k w2) (holds_self es fs h2 w3)⟩

theorem holds_sing (kw : Tree V) (fs : Entries V) (h : Holds kw fs) : Holds (.sing kw) fs := by
  match fs with
  | .nil => trivial
  | .cons k x fs => exact ⟨by simpa [Tree.get] using h.1, holds_sing kw fs h.2⟩

mutual
/-- For a dictionary signature: flattening matching arguments succeeds and rebuilding restores them. -/
theorem roundtrip (t : Tree S) (x : Tree V) (hd : ∀ s, t ≠ .leaf s) (hw : Wf t) (hp : Plain t)
    (h : Matches compat t x) : ∃ a, flat compat t x = some a ∧ rebuild compat t a = some x := by
  match t, x with
  | .leaf s, _ => exact absurd rfl (hd s)
  | .sing _, .leaf _ => exact h.elim
  | .sing _, .node _ => exact h.elim
  | .node _, .leaf _ => exact h.elim
  | .node _, .sing _ => exact h.elim
  | .sing (.leaf s), .sing (.leaf v) =>
    have h' : compat s v = true := h
    exact ⟨.val v, by simp [flat, h'], by simp [rebuild, h']⟩
  | .sing (.leaf s), .sing (.sing _) => exact h.elim
  | .sing (.leaf s), .sing (.node _) => exact h.elim
  | .sing (.sing _), _ => exact hp.elim
  | .sing (.node es), .sing (.leaf _) => exact h.elim
  | .sing (.node es), .sing (.sing _) => exact h.elim
  | .sing (.node es), .sing (.node fs) =>
    have h' : MatchesE compat es fs := h
    obtain ⟨as, h1, h2⟩ := roundtripE es fs (.sing (.node fs)) none hw hp h' (holds_sing _ _ (holds_self es fs h' hw))
    exact ⟨.tup as, by simp [flat, h1], by simp [rebuild, h2]⟩
  | .node es, .node fs =>
    have h' : MatchesE compat es fs := h
    obtain ⟨as, h1, h2⟩ := roundtripE es fs (.node fs) none hw hp h' (holds_self es fs h' hw)
    exact ⟨.tup as, by simp [flat, h1], by simp [rebuild, h2]⟩

theorem roundtripE (es : Entries S) (fs : Entries V) (kw : Tree V) (arg : Option (Tree V)) (hw : WfE es)
    (hp : PlainE es) (h : MatchesE compat es fs) (hk : Holds kw fs) :
    ∃ as, flatE compat es kw arg = some as ∧ rebuildE compat es as = some fs := by
  match es, fs with
  | .nil, .nil => exact ⟨[], rfl, rfl⟩
  | .nil, .cons .. => exact h.elim
  | .cons .., .nil => exact h.elim
  | .cons k (.leaf s) es, .cons k' (.leaf v) fs =>
    obtain ⟨rfl, h1, h2⟩ := h
    have h1' : compat s v = true := h1
    obtain ⟨as, r1, r2⟩ := roundtripE es fs kw (some (.leaf v)) hw.2.2 hp.2 h2 hk.2
    exact ⟨.val v :: as, by simp [flatE, pick_of_get hk.1, h1', r1], by simp [rebuildE, h1', r2]⟩
  | .cons k (.leaf s) es, .cons k' (.sing _) fs => exact h.2.1.elim
  | .cons k (.leaf s) es, .cons k' (.node _) fs => exact h.2.1.elim
  | .cons k (.sing t) es, .cons k' x fs =>
    obtain ⟨rfl, h1, h2⟩ := h
    by_cases hl : (Tree.sing t).len = 0
    · obtain ⟨as, r1, r2⟩ := roundtripE es fs kw (pick kw k arg) hw.2.2 hp.2 h2 hk.2
      exact ⟨as, by simp [flatE, hl, r1], by simp [rebuildE, hl, r2, skeleton_eq _ _ h1 hl]⟩
    · obtain ⟨a, q1, q2⟩ := roundtrip (.sing t) x (by simp) hw.1 hp.1 h1
      obtain ⟨as, r1, r2⟩ := roundtripE es fs kw a.carry hw.2.2 hp.2 h2 hk.2
      exact ⟨a :: as, by simp [flatE, hl, pick_of_get hk.1, q1, r1], by simp [rebuildE, hl, q2, r2]⟩
  | .cons k (.node t) es, .cons k' x fs =>
    obtain ⟨rfl, h1, h2⟩ := h
    by_cases hl : (Tree.node t).len = 0
    · obtain ⟨as, r1, r2⟩ := roundtripE es fs kw (pick kw k arg) hw.2.2 hp.2 h2 hk.2
      exact ⟨as, by simp [flatE, hl, r1], by simp [rebuildE, hl, r2, skeleton_eq _ _ h1 hl]⟩
    · obtain ⟨a, q1, q2⟩ := roundtrip (.node t) x (by simp) hw.1 hp.1 h1
      obtain ⟨as, r1, r2⟩ := roundtripE es fs kw a.carry hw.2.2 hp.2 h2 hk.2
      exact ⟨a :: as, by simp [flatE, hl, pick_of_get hk.1, q1, r1], by simp [rebuildE, hl, q2, r2]⟩
end

mutual
/-- Whatever is flattened can be rebuilt, to arguments matching the signature. -/
theorem rebuildable (t : Tree S) (kw : Tree V) (a : Args V) (h : flat compat t kw = some a) :
    ∃ x, rebuild compat t a = some x ∧ Matches compat t x := by
  match t with
  | .leaf _ => simp [flat] at h
  | .sing (.leaf s) =>
    simp only [flat] at h
    split at h
    · split at h
      · rename_i v hc; cases h; exact ⟨.sing (.leaf v), by simp [rebuild, hc], hc⟩
      · simp at h
    · split at h
      · rename_i v hc; cases h; exact ⟨.sing (.leaf v), by simp [rebuild, hc], hc⟩
      · simp at h
    · simp at h
  | .sing (.sing t) =>
    rw [flat] at h
    · obtain ⟨x, h1, h2⟩ := rebuildable (.sing t) kw a h
      refine ⟨.sing x, ?_, h2⟩
      rw [rebuild]
      · rw [h1]; rfl
      · simp
    · simp
  | .sing (.node es) =>
    rw [flat] at h
    · obtain ⟨x, h1, h2⟩ := rebuildable (.node es) kw a h
      refine ⟨.sing x, ?_, h2⟩
      rw [rebuild]
      · rw [h1]; rfl
      · simp
    · simp
  | .node es =>
    simp only [flat] at h
    split at h
    · simp at h
    · rw [Option.map_eq_some_iff] at h
      obtain ⟨as, h', rfl⟩ := h
      obtain ⟨fs, h1, h2⟩ := rebuildableE es kw none as h'
      exact ⟨.node fs, by simp [rebuild, h1], h2⟩

theorem rebuildableE (es : Entries S) (kw : Tree V) (arg : Option (Tree V)) (as : List (Args V))
    (h : flatE compat es kw arg = some as) : ∃ fs, rebuildE compat es as = some fs ∧ MatchesE compat es fs := by
  match es with
  | .nil => exact ⟨.nil, rfl, trivial⟩
  | .cons k (.leaf s) es =>
    simp only [flatE] at h
    split at h
    · split at h
      · rename_i v _ hc
        rw [Option.map_eq_some_iff] at h
        obtain ⟨as, h', rfl⟩ := h
        obtain ⟨fs, h1, h2⟩ := rebuildableE es kw _ as h'
        exact ⟨.cons k (.leaf v) fs, by simp [rebuildE, hc, h1], rfl, hc, h2⟩
      · simp at h
    · simp at h
  | .cons k (.sing t) es =>
    simp only [flatE] at h
    split at h
    · rename_i hl
      obtain ⟨fs, h1, h2⟩ := rebuildableE es kw _ as h
      exact ⟨.cons k (skeleton (.sing t)) fs, by simp [rebuildE, hl, h1], rfl, matches_skeleton _ hl, h2⟩
    · rename_i hl
      split at h
      · simp at h
      · split at h
        · simp at h
        · rename_i a ha
          rw [Option.map_eq_some_iff] at h
          obtain ⟨as, h', rfl⟩ := h
          obtain ⟨y, q1, q2⟩ := rebuildable (.sing t) _ a ha
          obtain ⟨fs, h1, h2⟩ := rebuildableE es kw _ as h'
          exact ⟨.cons k y fs, by simp [rebuildE, hl, q1, h1], rfl, q2, h2⟩
  | .cons k (.node t) es =>
    simp only [flatE] at h
    split at h
    · rename_i hl
      obtain ⟨fs, h1, h2⟩ := rebuildableE es kw _ as h
      exact ⟨.cons k (skeleton (.node t)) fs, by simp [rebuildE, hl, h1], rfl, matches_skeleton _ hl, h2⟩
    · rename_i hl
      split at h
      · simp at h
      · split at h
        · simp at h
        · rename_i a ha
          rw [Option.map_eq_some_iff] at h
          obtain ⟨as, h', rfl⟩ := h
          obtain ⟨y, q1, q2⟩ := rebuildable (.node t) _ a ha
          obtain ⟨fs, h1, h2⟩ := rebuildableE es kw _ as h'
          exact ⟨.cons k y fs, by simp [rebuildE, hl, q1, h1], rfl, q2, h2⟩
end

end Verif.Utils.Signature
