import Verif.Obs.Lemmas

/-!
# The state of the agent after observe: lemmas
-/

namespace Verif.Obs

variable {R : Type}

/-- What holds at all times. -/
structure Good (n : Nat) (st : State R) : Prop where
  sized : Sized n st
  waiting : ∀ (k : Nat), ∀ t ∈ (st.terminals[k]?).getD [], t = 0
  lengths : ∀ (k : Nat), ((st.rewards[k]?).getD []).length = ((st.terminals[k]?).getD []).length
  sent : ∀ s ∈ st.sent, Acceptable n s

theorem getD_set {α : Type} {l : List (List α)} {k j : Nat} {x : List α} (hk : k < l.length) :
    ((l.set k x)[j]?).getD [] = if k = j then x else (l[j]?).getD [] := by
  rw [List.getElem?_set]
  split
  · rfl
  · rfl

theorem place_range {n : Nat} {p : Int} {k : Nat} (h : place n p = some k) : k < n ∧ (p = k ∨ p + n = k) := by
  unfold place at h
  split at h
  · split at h
    · cases h; omega
    · cases h
  · split at h
    · cases h; omega
    · cases h

theorem place_at {n : Nat} {p : Int} {k j : Nat} (h : place n p = some k) (hj : j < n) : k = j ↔ p = j ∨ p + n = j := by
  have := place_range h
  omega

theorem place_ok {n : Nat} {p : Int} (h0 : 0 ≤ p) (h1 : p < n) : place n p = some p.toNat := by
  unfold place
  rw [if_pos h0, if_pos h1]

theorem places_range {n : Nat} : ∀ {l : List (Int × Int × R)} {ks : List (Nat × Int × Int × R)}, places n l = some ks →
    ks.map (fun e => e.2) = l ∧ ∀ e ∈ ks, place n e.2.1 = some e.1
  | [], ks, h => by cases h; exact ⟨rfl, nofun⟩
  | (p, t, r) :: l, ks, h => by
    unfold places at h
    split at h
    · cases h
    · rename_i k hk
      split at h
      · cases h
      · rename_i ks' hks
        cases h
        obtain ⟨h1, h2⟩ := places_range hks
        refine ⟨by rw [List.map_cons, h1], fun e he => ?_⟩
        rcases List.mem_cons.1 he with rfl | he
        · exact hk
        · exact h2 e he

theorem places_some {n : Nat} : ∀ {l : List (Int × Int × R)}, (∀ e ∈ l, 0 ≤ e.1 ∧ e.1 < n) →
    places n l = some (l.map (fun e => (e.1.toNat, e)))
  | [], _ => rfl
  | (p, t, r) :: l, h => by
    have hp := h _ List.mem_cons_self
    unfold places
    rw [place_ok hp.1 hp.2, places_some (fun e he => h e (List.mem_cons_of_mem _ he))]
    rfl

/-- Negative interactions have places from the end. -/
theorem places_negative {n : Nat} : ∀ {l : List (Int × Int × R)}, (∀ e ∈ l, -(n : Int) ≤ e.1 ∧ e.1 < 0) →
    places n l = some (l.map (fun (e : Int × Int × R) => ((e.1 + (n : Int)).toNat, e)))
  | [], _ => rfl
  | (p, t, r) :: l, h => by
    have hp := h _ List.mem_cons_self
    have hq : place n p = some (p + n).toNat := by
      unfold place
      rw [if_neg (by have := hp.2; simp only at this; omega), if_pos hp.1]
    unfold places
    rw [hq, places_negative (fun e he => h e (List.mem_cons_of_mem _ he))]
    rfl

/-- An out-of-range interaction has no place. -/
theorem places_none {n : Nat} : ∀ {l : List (Int × Int × R)} {e : Int × Int × R}, e ∈ l → (e.1 < -(n : Int) ∨ (n : Int) ≤ e.1) → places n l = none
  | [], _, h, _ => nomatch h
  | (p, t, r) :: l, e, h, he => by
    unfold places
    rcases List.mem_cons.1 h with rfl | h
    · have : place n p = none := by
        unfold place
        dsimp only at he
        split
        · rw [if_neg (by omega)]
        · rw [if_neg (by omega)]
      rw [this]
    · rw [places_none h he]
      cases place n p <;> rfl

theorem keeps_zero {b : Option Nat} {t : Int} {len : Nat} (h : keeps b t len = true) : t = 0 := by
  unfold keeps at h
  rw [Bool.and_eq_true] at h
  exact eq_of_beq h.1

theorem convert_none {n : Nat} {ts : List Int} {p : Int} (h : convert n ts p = none) :
    (∀ t ∈ ts, t = 0 ∨ t = 1 ∨ t = 2) ∧ 0 ≤ p ∧ p < n := by
  unfold convert at h
  split at h
  · cases h
  · rename_i h1
    split at h
    · cases h
    · rename_i h2
      refine ⟨fun t ht => ?_, by omega⟩
      rw [Bool.not_eq_true, Bool.not_eq_false', List.all_eq_true] at h1
      have := h1 t ht
      rw [Bool.and_eq_true, decide_eq_true_iff, decide_eq_true_iff] at this
      omega

theorem convert_of {n : Nat} {ts : List Int} {p : Int} (h1 : ∀ t ∈ ts, t = 0 ∨ t = 1 ∨ t = 2) (h2 : 0 ≤ p) (h3 : p < n) : convert n ts p = none := by
  unfold convert
  have : ts.all (fun t => decide (0 ≤ t) && decide (t < 3)) = true := by
    rw [List.all_eq_true]
    intro t ht
    have := h1 t ht
    rw [Bool.and_eq_true, decide_eq_true_iff, decide_eq_true_iff]
    omega
  rw [this]
  rw [if_neg (by decide), if_neg (by omega)]

theorem good_store {n : Nat} {st : State R} {k : Nat} {ts : List Int} {rs : List R} (h : Good n st) (hk : k < n) (h0 : ∀ t ∈ ts, t = 0)
    (hl : rs.length = ts.length) : Good n { st with terminals := st.terminals.set k ts, rewards := st.rewards.set k rs } := by
  have e1 : k < st.terminals.length := by rw [h.sized.terminals]; exact hk
  have e2 : k < st.rewards.length := by rw [h.sized.rewards]; exact hk
  refine ⟨⟨h.sized.completed, h.sized.counter, ?_, ?_⟩, ?_, ?_, h.sent⟩
  · rw [List.length_set]; exact h.sized.terminals
  · rw [List.length_set]; exact h.sized.rewards
  · intro j t ht
    dsimp only at ht
    rw [getD_set e1] at ht
    split at ht
    · exact h0 t ht
    · exact h.waiting j t ht
  · intro j
    dsimp only
    rw [getD_set e1, getD_set e2]
    split
    · exact hl
    · exact h.lengths j

theorem last_only {ts : List Int} {t : Int} (h : ∀ x ∈ ts, x = 0) (i : Nat) (x : Int) (hx : (ts ++ [t])[i]? = some x)
    (hi : i + 1 < (ts ++ [t]).length) : x = 0 := by
  rw [List.length_append, List.length_singleton] at hi
  rw [List.getElem?_append_left (by omega)] at hx
  exact h x (List.mem_of_getElem? hx)

theorem loop_good {c : Config} : ∀ {l : List (Nat × Int × Int × R)} {st : State R}, Good c.interactions st → (∀ e ∈ l, e.1 < c.interactions) →
    Good c.interactions (loop c st l).1
  | [], _, h, _ => h
  | (k, p, t, r) :: l, st, h, hl => by
    have hk : k < c.interactions := hl _ List.mem_cons_self
    have hl' : ∀ e ∈ l, e.1 < c.interactions := fun e he => hl e (List.mem_cons_of_mem _ he)
    have hlen : ((st.rewards[k]?).getD [] ++ [r]).length = ((st.terminals[k]?).getD [] ++ [t]).length := by
      rw [List.length_append, List.length_append, h.lengths k]; rfl
    unfold loop
    dsimp only
    rw [List.getD_eq_getElem?_getD, List.getD_eq_getElem?_getD]
    split
    · rename_i hkeep
      refine loop_good (good_store h hk ?_ hlen) hl'
      intro x hx
      rcases List.mem_append.1 hx with hx | hx
      · exact h.waiting k x hx
      · rw [List.mem_singleton.1 hx]; exact keeps_zero hkeep
    · have hg : Good c.interactions { st with terminals := st.terminals.set k [], rewards := st.rewards.set k [] } :=
        good_store h hk nofun rfl
      split
      · exact hg
      · rename_i hc
        obtain ⟨h1, h2, h3⟩ := convert_none hc
        refine loop_good ⟨⟨hg.sized.completed, hg.sized.counter, hg.sized.terminals, hg.sized.rewards⟩, hg.waiting, hg.lengths, ?_⟩ hl'
        intro s hs
        rcases List.mem_append.1 hs with hs | hs
        · exact h.sent s hs
        · rw [List.mem_singleton.1 hs]
          exact ⟨hk, by simp, hlen, h1, last_only (h.waiting k)⟩

theorem seen_store {n : Nat} {st : State R} {k j : Nat} {ts : List Int} {rs : List R} (h : Sized n st) (hk : k < n) :
    rewardsSeen { st with terminals := st.terminals.set k ts, rewards := st.rewards.set k rs } j =
      (st.sent.filter (fun s => s.interaction = j)).flatMap (·.reward) ++ (if k = j then rs else (st.rewards[j]?).getD []) ∧
    terminalsSeen { st with terminals := st.terminals.set k ts, rewards := st.rewards.set k rs } j =
      (st.sent.filter (fun s => s.interaction = j)).flatMap (·.terminal) ++ (if k = j then ts else (st.terminals[j]?).getD []) := by
  unfold rewardsSeen terminalsSeen
  dsimp only
  rw [getD_set (l := st.terminals) (by rw [h.terminals]; exact hk), getD_set (l := st.rewards) (by rw [h.rewards]; exact hk)]
  exact ⟨rfl, rfl⟩

theorem loop_seen {c : Config} {j : Nat} : ∀ {l : List (Nat × Int × Int × R)} {st : State R}, Sized c.interactions st →
    (∀ e ∈ l, e.1 < c.interactions) → (loop c st l).2 = .ok () →
    rewardsSeen (loop c st l).1 j = rewardsSeen st j ++ (l.filter (fun e => e.1 = j)).map (fun e => e.2.2.2) ∧
    terminalsSeen (loop c st l).1 j = terminalsSeen st j ++ (l.filter (fun e => e.1 = j)).map (fun e => e.2.2.1)
  | [], st, _, _, _ => ⟨(List.append_nil _).symm, (List.append_nil _).symm⟩
  | (k, p, t, r) :: l, st, h, hl, hok => by
    have hk : k < c.interactions := hl _ List.mem_cons_self
    have hl' : ∀ e ∈ l, e.1 < c.interactions := fun e he => hl e (List.mem_cons_of_mem _ he)
    have hsz : ∀ (ts : List Int) (rs : List R) (sent : List (Call R)), Sized c.interactions
        { st with terminals := st.terminals.set k ts, rewards := st.rewards.set k rs, sent := sent } := fun ts rs sent =>
      ⟨h.completed, h.counter, by rw [List.length_set]; exact h.terminals, by rw [List.length_set]; exact h.rewards⟩
    unfold loop at hok ⊢
    dsimp only at hok ⊢
    rw [List.getD_eq_getElem?_getD, List.getD_eq_getElem?_getD] at hok ⊢
    split at hok
    · rename_i hkeep
      rw [if_pos hkeep]
      obtain ⟨h1, h2⟩ := loop_seen (j := j) (hsz _ _ st.sent) hl' hok
      rw [h1, h2, (seen_store h hk).1, (seen_store h hk).2]
      unfold rewardsSeen terminalsSeen
      by_cases hkj : k = j
      · subst hkj
        simp
      · simp [hkj]
    · rename_i hkeep
      rw [if_neg hkeep]
      split at hok
      · cases hok
      · rename_i hc
        obtain ⟨h1, h2⟩ := loop_seen (j := j) (hsz [] [] (st.sent ++ [⟨k, (st.terminals[k]?).getD [] ++ [t], (st.rewards[k]?).getD [] ++ [r]⟩])) hl' hok
        rw [h1, h2]
        unfold rewardsSeen terminalsSeen
        dsimp only
        rw [getD_set (l := st.terminals) (by rw [h.terminals]; exact hk), getD_set (l := st.rewards) (by rw [h.rewards]; exact hk)]
        by_cases hkj : k = j
        · subst hkj
          simp
        · simp [hkj]

theorem loop_ok {c : Config} : ∀ {l : List (Nat × Int × Int × R)} {st : State R}, Good c.interactions st →
    (∀ e ∈ l, e.1 < c.interactions ∧ 0 ≤ e.2.1 ∧ e.2.1 < c.interactions ∧ (e.2.2.1 = 0 ∨ e.2.2.1 = 1 ∨ e.2.2.1 = 2)) →
    (loop c st l).2 = .ok ()
  | [], _, _, _ => rfl
  | (k, p, t, r) :: l, st, h, hl => by
    obtain ⟨hk, hp1, hp2, ht⟩ := hl _ List.mem_cons_self
    dsimp only at hk hp1 hp2 ht
    have hl' := fun e he => hl e (List.mem_cons_of_mem _ he)
    have hlen : ((st.rewards[k]?).getD [] ++ [r]).length = ((st.terminals[k]?).getD [] ++ [t]).length := by
      rw [List.length_append, List.length_append, h.lengths k]; rfl
    unfold loop
    dsimp only
    rw [List.getD_eq_getElem?_getD, List.getD_eq_getElem?_getD]
    split
    · rename_i hkeep
      refine loop_ok (good_store h hk ?_ hlen) hl'
      intro x hx
      rcases List.mem_append.1 hx with hx | hx
      · exact h.waiting k x hx
      · rw [List.mem_singleton.1 hx]; exact keeps_zero hkeep
    · have hg : Good c.interactions { st with terminals := st.terminals.set k [], rewards := st.rewards.set k [] } :=
        good_store h hk nofun rfl
      have hc : convert c.interactions ((st.terminals[k]?).getD [] ++ [t]) p = none := by
        refine convert_of (fun x hx => ?_) hp1 hp2
        rcases List.mem_append.1 hx with hx | hx
        · exact Or.inl (h.waiting k x hx)
        · rw [List.mem_singleton.1 hx]; exact ht
      rw [hc]
      obtain ⟨h1, _, _⟩ := convert_none hc
      refine loop_ok ⟨⟨hg.sized.completed, hg.sized.counter, hg.sized.terminals, hg.sized.rewards⟩, hg.waiting, hg.lengths, ?_⟩ hl'
      intro s hs
      rcases List.mem_append.1 hs with hs | hs
      · exact h.sent s hs
      · rw [List.mem_singleton.1 hs]
        exact ⟨hk, by simp, hlen, h1, last_only (h.waiting k)⟩

theorem loop_flags {c : Config} : ∀ {l : List (Nat × Int × Int × R)} {st : State R},
    (loop c st l).1.completed = st.completed ∧ (loop c st l).1.counter = st.counter
  | [], _ => ⟨rfl, rfl⟩
  | (k, p, t, r) :: l, st => by
    unfold loop
    dsimp only
    split
    · exact loop_flags (l := l)
    · split
      · exact ⟨rfl, rfl⟩
      · exact loop_flags (l := l)

theorem restart_length (inc : List Nat) : ∀ (l : List (Nat × Int × Int × R)) (counter : List Nat), (restart inc counter l).length = counter.length
  | [], _ => rfl
  | e :: l, counter => by
    unfold restart
    rw [restart_length inc l, List.length_set]

theorem restart_other (inc : List Nat) {j : Nat} : ∀ (l : List (Nat × Int × Int × R)) (counter : List Nat), (∀ e ∈ l, e.1 ≠ j) →
    (restart inc counter l)[j]? = counter[j]?
  | [], _, _ => rfl
  | e :: l, counter, h => by
    unfold restart
    rw [restart_other inc l _ (fun e he => h e (List.mem_cons_of_mem _ he)), List.getElem?_set_ne (h e List.mem_cons_self)]

theorem restart_entry (inc : List Nat) : ∀ (l : List (Nat × Int × Int × R)) (counter : List Nat) (e : Nat × Int × Int × R),
    (l.map (fun e => e.1)).Nodup → e ∈ l → e.1 < counter.length →
    (restart inc counter l)[e.1]? = some (if 0 < e.2.2.1 then 0 else inc.getD e.1 0)
  | [], _, _, _, h, _ => nomatch h
  | a :: l, counter, e, hn, h, hlen => by
    rw [List.map_cons, List.nodup_cons] at hn
    unfold restart
    rcases List.mem_cons.1 h with rfl | h
    · rw [restart_other]
      · rw [List.getElem?_set_self hlen]
      · intro a ha hae
        exact hn.1 (List.mem_map.2 ⟨a, ha, hae⟩)
    · exact restart_entry inc l _ e hn.2 h (by rw [List.length_set]; exact hlen)

theorem increment_get {counter : List Nat} {ks : List Nat} {j : Nat} :
    (increment counter ks)[j]? = (counter[j]?).map (fun x => if j ∈ ks then x + 1 else x) := by
  unfold increment
  rw [List.getElem?_mapIdx]
  congr 1
  funext x
  by_cases h : j ∈ ks
  · rw [if_pos h, if_pos (List.contains_iff_mem.2 h)]
  · rw [if_neg h, if_neg (fun h' => h (List.contains_iff_mem.1 h'))]

theorem good_init (n : Nat) : Good n (State.init n : State R) := by
  refine ⟨⟨List.length_replicate, List.length_replicate, List.length_replicate, List.length_replicate⟩, ?_, ?_, nofun⟩
  · intro k t ht
    unfold State.init at ht
    dsimp only at ht
    rw [List.getElem?_replicate] at ht
    split at ht <;> cases ht
  · intro k
    unfold State.init
    dsimp only
    rw [List.getElem?_replicate, List.getElem?_replicate]
    split <;> rfl

section
variable [DecidableEq R] [Zero R]

/-- What an observe call did. -/
theorem observe_good {c : Config} {st : State R} (h : Good c.interactions st) (r : Arg R) (t : Arg Code) (p : Arg Int) :
    Good c.interactions (observe c st r t p).1 := by
  unfold observe
  split
  · exact h
  · split
    · exact h
    · rename_i l _ ks hks
      split
      · exact h
      · dsimp only
        have hg : ∀ counter : List Nat, counter.length = c.interactions → Good c.interactions
            { st with completed := st.completed.mapIdx (fun i b => b || (ks.map (·.1)).contains i), counter := counter } := fun counter hc =>
          ⟨⟨by rw [List.length_mapIdx]; exact h.sized.completed, hc, h.sized.terminals, h.sized.rewards⟩, h.waiting, h.lengths, h.sent⟩
        have hc : (increment st.counter (ks.map (·.1))).length = c.interactions := by
          unfold increment
          rw [List.length_mapIdx]; exact h.sized.counter
        split
        · exact hg _ hc
        · exact loop_good (hg _ (by rw [restart_length]; exact hc)) (fun e he => (place_range ((places_range hks).2 e he)).1)

theorem step_good {c : Config} {st : State R} (h : Good c.interactions st) (o : Op R) : Good c.interactions (step c st o) := by
  cases o with
  | act ks => exact ⟨⟨by unfold step; dsimp only; rw [List.length_mapIdx]; exact h.sized.completed, h.sized.counter, h.sized.terminals, h.sized.rewards⟩, h.waiting, h.lengths, h.sent⟩
  | observe r t p => exact observe_good h r t p
  | reset =>
    have h0 := good_init (R := R) c.interactions
    exact ⟨⟨h0.sized.completed, h0.sized.counter, h0.sized.terminals, h0.sized.rewards⟩, h0.waiting, h0.lengths, h.sent⟩

theorem run_good (c : Config) (ops : List (Op R)) : Good c.interactions (run c ops) := by
  unfold run
  have : ∀ (ops : List (Op R)) (st : State R), Good c.interactions st → Good c.interactions (ops.foldl (step c) st) := by
    intro ops
    induction ops with
    | nil => exact fun _ h => h
    | cons o ops ih => exact fun st h => ih _ (step_good h o)
  exact this ops _ (good_init c.interactions)

/-- What is known about a call without exception. -/
theorem ok_cases {c : Config} {st : State R} {reward : Arg R} {terminal : Arg Code} {parallel : Arg Int} {l : List (Int × Int × R)}
    (hm : Means c.interactions reward terminal parallel l) (hok : (observe c st reward terminal parallel).2 = .ok ()) :
    ∃ ks, places c.interactions l = some ks ∧ (∀ e ∈ ks, st.completed.getD e.1 false = false) ∧
      observe c st reward terminal parallel = loop c { st with
        completed := st.completed.mapIdx (fun i b => b || (ks.map (·.1)).contains i),
        counter := restart (increment st.counter (ks.map (·.1))) (increment st.counter (ks.map (·.1))) ks } ks := by
  unfold observe at hok ⊢
  rw [forms_iff.2 hm] at hok ⊢
  dsimp only at hok ⊢
  cases hks : places c.interactions l with
  | none => rw [hks] at hok; cases hok
  | some ks =>
    rw [hks] at hok
    refine ⟨ks, rfl, ?_, ?_⟩
    · intro e he
      dsimp only at hok
      split at hok
      · cases hok
      · rename_i h
        rw [Bool.not_eq_true, List.any_eq_false] at h
        exact Bool.eq_false_iff.2 (h e he)
    · dsimp only at hok ⊢
      split at hok
      · cases hok
      · rename_i h
        rw [if_neg h]
        split at hok
        · cases hok
        · rename_i h'
          rw [if_neg h']

end

end Verif.Obs
