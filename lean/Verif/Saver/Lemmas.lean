import Verif.Saver.Spec

/-!
# The saver: lemmas
-/

namespace Verif.Saver

variable {S : Type}

theorem newestOf_append {α : Type} (k : Nat) (a b : List α) (h : k ≤ b.length) : newestOf k (a ++ b) = newestOf k b := by
  unfold newestOf
  rw [List.length_append, show a.length + b.length - k = a.length + (b.length - k) by omega, List.drop_append,
    List.drop_eq_nil_of_le (by omega), List.nil_append]
  congr 1
  omega

theorem newestOf_all {α : Type} (k : Nat) (l : List α) (h : l.length ≤ k) : newestOf k l = l := by
  unfold newestOf
  rw [show l.length - k = 0 by omega, List.drop_zero]

theorem newestOf_length {α : Type} (k : Nat) (l : List α) : (newestOf k l).length = min l.length k := by
  unfold newestOf
  rw [List.length_drop]
  omega

theorem newestOf_idem {α : Type} (k : Nat) (l : List α) : newestOf k (newestOf k l) = newestOf k l :=
  newestOf_all k _ (by rw [newestOf_length]; omega)

theorem newestOf_map {α β : Type} (k : Nat) (f : α → β) (l : List α) : (newestOf k l).map f = newestOf k (l.map f) := by
  unfold newestOf
  rw [List.map_drop, List.length_map]

theorem newestOf_nodup {α : Type} (k : Nat) (l : List α) (h : l.Nodup) : (newestOf k l).Nodup := h.sublist (List.drop_sublist _ _)

/-- Without hours, exactly the first checkpoints are deleted. -/
theorem sweep_none (k : Nat) (l : List (Name × Int)) (last : Int) :
    sweep k none l last = (newestOf k l, (l.take (l.length - k)).map (·.1), last) := by
  induction l with
  | nil => simp [sweep, newestOf]
  | cons e l ih =>
    obtain ⟨n, t⟩ := e
    unfold sweep
    split
    · rename_i h
      rw [ih]
      unfold newestOf
      rw [List.length_cons, show l.length + 1 - k = (l.length - k) + 1 by omega, List.drop_succ_cons, List.take_succ_cons, List.map_cons]
    · rename_i h
      unfold newestOf
      rw [List.length_cons, show l.length + 1 - k = 0 by omega, List.drop_zero, List.take_zero, List.map_nil]

/-- With hours too, the last checkpoints are listed. -/
theorem sweep_listed (k : Nat) (hours : Option Int) (l : List (Name × Int)) (last : Int) : (sweep k hours l last).1 = newestOf k l := by
  induction l generalizing last with
  | nil => simp [sweep, newestOf]
  | cons e l ih =>
    obtain ⟨n, t⟩ := e
    have hc : k < l.length + 1 → newestOf k l = newestOf k ((n, t) :: l) := by
      intro h
      unfold newestOf
      rw [List.length_cons, show l.length + 1 - k = (l.length - k) + 1 by omega, List.drop_succ_cons]
    unfold sweep
    split
    · rename_i h
      have h := hc (by omega)
      cases hours with
      | none => exact (ih last).trans h
      | some v =>
        dsimp only
        split
        · exact (ih t).trans h
        · exact (ih last).trans h
    · rename_i h
      exact (newestOf_all k _ (by rw [List.length_cons]; omega)).symm

/-- Deleted checkpoints were listed, and are not any more. -/
theorem sweep_deleted (k : Nat) (hours : Option Int) (l : List (Name × Int)) (last : Int) (n : Name)
    (h : n ∈ (sweep k hours l last).2.1) : n ∈ (l.take (l.length - k)).map (·.1) := by
  induction l generalizing last with
  | nil => simp [sweep] at h
  | cons e l ih =>
    obtain ⟨m, t⟩ := e
    unfold sweep at h
    split at h
    · rename_i hk
      rw [List.length_cons, show l.length + 1 - k = (l.length - k) + 1 by omega, List.take_succ_cons, List.map_cons, List.mem_cons]
      cases hours with
      | none =>
        rcases List.mem_cons.1 h with h | h
        · exact .inl h
        · exact .inr (ih last h)
      | some v =>
        dsimp only at h
        split at h
        · exact .inr (ih t h)
        · rcases List.mem_cons.1 h with h | h
          · exact .inl h
          · exact .inr (ih last h)
    · simp at h

/-- The time of the last checkpoint preserved does not decrease. -/
theorem sweep_mono (k : Int) (h : Int) (hh : 0 < h) (l : List (Name × Int)) (last : Int) : last ≤ (sweep k (some h) l last).2.2 := by
  induction l generalizing last with
  | nil => exact Int.le_refl _
  | cons e l ih =>
    obtain ⟨m, t⟩ := e
    unfold sweep
    split
    · dsimp only
      split
      · have := ih t
        omega
      · exact ih last
    · exact Int.le_refl _

/-- Checkpoints are deleted only less than the given hours after one preserved. -/
theorem sweep_hours (k : Int) (h : Int) (hh : 0 < h) (l : List (Name × Int)) (last : Int) (n : Name)
    (hn : n ∈ (sweep k (some h) l last).2.1) : ∃ t, (n, t) ∈ l ∧ t < (sweep k (some h) l last).2.2 + h * 3600 := by
  induction l generalizing last with
  | nil => simp [sweep] at hn
  | cons e l ih =>
    obtain ⟨m, t⟩ := e
    unfold sweep at hn ⊢
    by_cases hk : k < (l.length : Int) + 1
    · rw [if_pos hk] at hn
      rw [if_pos hk]
      dsimp only at hn ⊢
      by_cases hl : last ≤ t - h * 3600
      · rw [if_pos hl] at hn
        rw [if_pos hl]
        obtain ⟨t', h1, h2⟩ := ih t hn
        exact ⟨t', .tail _ h1, h2⟩
      · rw [if_neg hl] at hn
        rw [if_neg hl]
        dsimp only at hn ⊢
        rcases List.mem_cons.1 hn with hn | hn
        · have := sweep_mono k h hh l last
          refine ⟨t, by rw [hn]; exact .head _, ?_⟩
          omega
        · obtain ⟨t', h1, h2⟩ := ih last hn
          exact ⟨t', .tail _ h1, h2⟩
    · rw [if_neg hk] at hn
      simp at hn

/-- Only listed checkpoints remain listed. -/
theorem sweep_sub (k : Int) (hours : Option Int) (l : List (Name × Int)) (last : Int) (e : Name × Int) (he : e ∈ (sweep k hours l last).1) : e ∈ l := by
  induction l generalizing last with
  | nil => exact he
  | cons x l ih =>
    obtain ⟨m, t⟩ := x
    unfold sweep at he
    split at he
    · cases hours with
      | none => exact .tail _ (ih last he)
      | some v =>
        dsimp only at he
        split at he
        · exact .tail _ (ih t he)
        · exact .tail _ (ih last he)
    · exact he

/-- The time preserved is an earlier one or that of a checkpoint which is neither deleted nor listed, at least the given hours later. -/
theorem sweep_preserved (k : Int) (h : Int) (hh : 0 < h) (l : List (Name × Int)) (hd : (l.map (·.1)).Nodup) (last : Int) :
    (sweep k (some h) l last).2.2 = last ∨ ∃ n, (n, (sweep k (some h) l last).2.2) ∈ l ∧ n ∉ (sweep k (some h) l last).2.1 ∧
      n ∉ (sweep k (some h) l last).1.map (·.1) ∧ last + h * 3600 ≤ (sweep k (some h) l last).2.2 := by
  induction l generalizing last with
  | nil => exact .inl rfl
  | cons e l ih =>
    obtain ⟨m, t⟩ := e
    rw [List.map_cons, List.nodup_cons] at hd
    unfold sweep
    by_cases hk : k < (l.length : Int) + 1
    · rw [if_pos hk]
      dsimp only
      have hdel : ∀ last, m ∉ (sweep k (some h) l last).2.1 := by
        intro last hm
        obtain ⟨t', h1, _⟩ := sweep_hours k h hh l last m hm
        exact hd.1 (List.mem_map.2 ⟨_, h1, rfl⟩)
      have hlis : ∀ last, m ∉ (sweep k (some h) l last).1.map (·.1) := by
        intro last hm
        obtain ⟨e, h1, h2⟩ := List.mem_map.1 hm
        exact hd.1 (List.mem_map.2 ⟨e, sweep_sub _ _ _ _ _ h1, h2⟩)
      by_cases hl : last ≤ t - h * 3600
      · rw [if_pos hl]
        rcases ih hd.2 t with h1 | ⟨n, h1, h2, h3, h4⟩
        · refine .inr ⟨m, ?_, hdel t, hlis t, ?_⟩
          · rw [h1]
            exact .head _
          · rw [h1]
            omega
        · exact .inr ⟨n, .tail _ h1, h2, h3, by omega⟩
      · rw [if_neg hl]
        dsimp only
        rcases ih hd.2 last with h1 | ⟨n, h1, h2, h3, h4⟩
        · exact .inl h1
        · refine .inr ⟨n, .tail _ h1, ?_, h3, h4⟩
          rw [List.mem_cons]
          rintro (h5 | h5)
          · exact hd.1 (List.mem_map.2 ⟨_, h1, h5⟩)
          · exact h2 h5
    · rw [if_neg hk]
      exact .inl rfl

/-- A checkpoint which is neither listed any more nor deleted was the given hours later than the one preserved before, and its time is recorded. -/
theorem sweep_recorded (k : Int) (h : Int) (hh : 0 < h) (l : List (Name × Int)) (last : Int) (n : Name) (t : Int) (hn : (n, t) ∈ l)
    (h1 : n ∉ (sweep k (some h) l last).2.1) (h2 : n ∉ (sweep k (some h) l last).1.map (·.1)) :
    last + h * 3600 ≤ t ∧ t ≤ (sweep k (some h) l last).2.2 := by
  induction l generalizing last with
  | nil => cases hn
  | cons e l ih =>
    obtain ⟨m, u⟩ := e
    unfold sweep at h1 h2 ⊢
    by_cases hk : k < (l.length : Int) + 1
    · rw [if_pos hk] at h1 h2 ⊢
      dsimp only at h1 h2 ⊢
      by_cases hl : last ≤ u - h * 3600
      · rw [if_pos hl] at h1 h2 ⊢
        rcases List.mem_cons.1 hn with he | he
        · obtain ⟨rfl, rfl⟩ := Prod.mk.inj he
          have := sweep_mono k h hh l t
          exact ⟨by omega, this⟩
        · have := ih u he h1 h2
          exact ⟨by omega, this.2⟩
      · rw [if_neg hl] at h1 h2 ⊢
        dsimp only at h1 h2 ⊢
        rcases List.mem_cons.1 hn with he | he
        · obtain ⟨rfl, rfl⟩ := Prod.mk.inj he
          exact absurd List.mem_cons_self h1
        · exact ih last he (fun hx => h1 (List.mem_cons_of_mem _ hx)) h2
    · rw [if_neg hk] at h2
      exact absurd (List.mem_map.2 ⟨_, hn, rfl⟩) h2

/-- Deleting the first names. -/
theorem filter_take (l : List (Name × S)) (h : (l.map (·.1)).Nodup) (j : Nat) :
    l.filter (fun e => ¬ ((l.map (·.1)).take j).contains e.1) = l.drop j := by
  conv => lhs; arg 2; rw [← List.take_append_drop j l]
  rw [List.filter_append, List.filter_eq_nil_iff.2, List.filter_eq_self.2, List.nil_append]
  · intro e he
    rw [decide_eq_true_iff, List.contains_iff_mem]
    intro hm
    have := h
    rw [← List.take_append_drop j l, List.map_append, List.nodup_append] at this
    rw [← List.map_take] at hm
    exact this.2.2 _ hm _ (List.mem_map.2 ⟨e, he, rfl⟩) rfl
  · intro e he
    rw [decide_eq_true_iff, Decidable.not_not, List.contains_iff_mem, ← List.map_take]
    exact List.mem_map.2 ⟨e, he, rfl⟩

theorem filter_names {α : Type} (l : List (Name × α)) (n : Name) :
    (l.filter (fun e => e.1 ≠ n)).map (·.1) = (l.map (·.1)).filter (fun m => m ≠ n) := by
  induction l with
  | nil => rfl
  | cons e l ih =>
    rw [List.map_cons, List.filter_cons, List.filter_cons]
    split
    · rw [List.map_cons, ih]
    · exact ih

theorem overwrite_nodup (l : List (Name × S)) (x : Name × S) (h : (l.map (·.1)).Nodup) : ((overwrite l x).map (·.1)).Nodup := by
  unfold overwrite
  rw [List.map_append, filter_names, List.nodup_append]
  refine ⟨h.sublist List.filter_sublist, by simp, ?_⟩
  intro a ha b hb hab
  rw [List.mem_filter] at ha
  simp only [List.map_cons, List.map_nil, List.mem_singleton] at hb
  simp [hab, hb] at ha

/-- Only one checkpoint has the name. -/
theorem filter_length (l : List (Name × S)) (n : Name) (h : (l.map (·.1)).Nodup) : l.length ≤ (l.filter (fun e => e.1 ≠ n)).length + 1 := by
  induction l with
  | nil => simp
  | cons e l ih =>
    rw [List.map_cons, List.nodup_cons] at h
    rw [List.filter_cons]
    split
    · have := ih h.2
      simp only [List.length_cons]
      omega
    · rename_i hn
      rw [decide_eq_true_iff, Decidable.not_not] at hn
      rw [List.filter_eq_self.2]
      · simp
      · intro a ha
        rw [decide_eq_true_iff]
        intro hb
        exact h.1 (List.mem_map.2 ⟨a, ha, by rw [hb, hn]⟩)

theorem newestOf_overwrite (k : Nat) (l : List (Name × S)) (x : Name × S) (h : (l.map (·.1)).Nodup) :
    newestOf k (overwrite (newestOf k l) x) = newestOf k (overwrite l x) := by
  by_cases hk : l.length ≤ k
  · rw [newestOf_all k l hk]
  · have hs : l = l.take (l.length - k) ++ newestOf k l := (List.take_append_drop _ _).symm
    have hl := newestOf_length k l
    have hn : ((newestOf k l).map (·.1)).Nodup := by
      rw [newestOf_map]
      exact newestOf_nodup k _ h
    have hf := filter_length (newestOf k l) x.1 hn
    conv => rhs; rw [hs]
    unfold overwrite
    rw [List.filter_append, List.append_assoc]
    refine (newestOf_append k _ _ ?_).symm
    rw [List.length_append, List.length_singleton]
    omega

theorem newestOf_foldl (k : Nat) (xs : List (Name × S)) (l : List (Name × S)) (h : (l.map (·.1)).Nodup) :
    newestOf k (xs.foldl overwrite (newestOf k l)) = newestOf k (xs.foldl overwrite l) := by
  induction xs generalizing l with
  | nil => exact newestOf_idem k l
  | cons x xs ih =>
    have hn : ((newestOf k l).map (·.1)).Nodup := by
      rw [newestOf_map]
      exact newestOf_nodup k _ h
    rw [List.foldl_cons, List.foldl_cons, ← ih _ (overwrite_nodup _ x hn), newestOf_overwrite k l x h, ih _ (overwrite_nodup _ x h)]

theorem listed_names {d : Dir S} (hd : Consistent d) (n : Name) (x : S) (t : Int) :
    (d.listed.filter (fun e => e.1 ≠ n) ++ [(n, t)]).map (·.1) = (overwrite d.files (n, x)).map (·.1) := by
  unfold overwrite
  rw [List.map_append, List.map_append, filter_names, filter_names, hd.names]
  rfl

/-- Without hours, a write keeps the newest checkpoints. -/
theorem write_files (s : Settings) (k : Nat) (hk : s.keep = k) (hs : s.hours = none) (d : Dir S) (hd : Consistent d) (n : Name) (x : S) (t : Int) :
    (write s d n x t).files = newestOf k (overwrite d.files (n, x)) ∧ Consistent (write s d n x t) := by
  have hl := listed_names hd n x t
  have hlen : (d.listed.filter (fun e => e.1 ≠ n) ++ [(n, t)]).length = (overwrite d.files (n, x)).length := by
    have := congrArg List.length hl
    rwa [List.length_map, List.length_map] at this
  have hf : (write s d n x t).files = newestOf k (overwrite d.files (n, x)) := by
    unfold write
    dsimp only
    rw [hk, hs, sweep_none]
    dsimp only
    rw [List.map_take, hl, hlen]
    exact filter_take (overwrite d.files (n, x)) (overwrite_nodup _ _ hd.nodup) _
  refine ⟨hf, ?_, ?_⟩
  · rw [hf, newestOf_map, ← hl]
    unfold write
    dsimp only
    rw [hk, hs, sweep_none]
    dsimp only
    rw [newestOf_map]
  · rw [hf, newestOf_map]
    exact newestOf_nodup k _ (overwrite_nodup _ _ hd.nodup)

theorem save_due (s : Settings) (g : Manager S) (m : Moment S) (h : due s g.last (m.count s.measure) = true) :
    save s g m = (⟨write s g.dir ⟨s.filename, m.count s.measure⟩ m.state m.now, some (m.count s.measure)⟩,
      some ⟨s.filename, m.count s.measure⟩) := if_pos h

theorem save_not (s : Settings) (g : Manager S) (m : Moment S) (h : ¬ due s g.last (m.count s.measure) = true) :
    save s g m = (g, none) := if_neg h

theorem run_cons (s : Settings) (g : Manager S) (m : Moment S) (l : List (Moment S)) :
    run s g (m :: l) = ((run s (save s g m).1 l).1, (save s g m).2 :: (run s (save s g m).1 l).2) := rfl

theorem run_length (s : Settings) (g : Manager S) (ms : List (Moment S)) : (run s g ms).2.length = ms.length := by
  induction ms generalizing g with
  | nil => rfl
  | cons m l ih => rw [run_cons, List.length_cons, List.length_cons, ih]

theorem run_files (s : Settings) (k : Nat) (hk : s.keep = k) (hs : s.hours = none) (g : Manager S) (hd : Consistent g.dir)
    (ms : List (Moment S)) : Consistent (run s g ms).1.dir ∧ (run s g ms).1.dir.files =
      if (written (run s g ms).2 ms).isEmpty then g.dir.files else newestOf k ((written (run s g ms).2 ms).foldl overwrite g.dir.files) := by
  induction ms generalizing g with
  | nil => exact ⟨hd, rfl⟩
  | cons m l ih =>
    rw [run_cons]
    dsimp only
    by_cases hm : due s g.last (m.count s.measure) = true
    · rw [save_due s g m hm]
      dsimp only
      obtain ⟨h1, h2⟩ := write_files s k hk hs g.dir hd ⟨s.filename, m.count s.measure⟩ m.state m.now
      obtain ⟨h3, h4⟩ := ih ⟨write s g.dir ⟨s.filename, m.count s.measure⟩ m.state m.now, some (m.count s.measure)⟩ h2
      refine ⟨h3, ?_⟩
      have hw : ∀ outs, written (some ⟨s.filename, m.count s.measure⟩ :: outs) (m :: l) = (⟨s.filename, m.count s.measure⟩, m.state) :: written outs l :=
        fun _ => rfl
      rw [h4, hw, if_neg (show ¬ (_ :: _).isEmpty = true from nofun), List.foldl_cons]
      split
      · rename_i he
        rw [List.isEmpty_iff.1 he]
        exact h1
      · dsimp only
        rw [h1, newestOf_foldl k _ _ (overwrite_nodup _ _ hd.nodup)]
    · rw [save_not s g m hm]
      exact ih g hd

/-- Of checkpoints already written, the interval is known. -/
theorem run_spaced (s : Settings) (hi : 0 ≤ s.interval) (g : Manager S) (ms : List (Moment S)) :
    (∀ l, g.last = some l → ∀ (j : Nat) b, (run s g ms).2[j]? = some (some b) → (l : Int) + s.interval ≤ b.number) ∧
    ∀ (i j : Nat) a b, i < j → (run s g ms).2[i]? = some (some a) → (run s g ms).2[j]? = some (some b) →
      (a.number : Int) + s.interval ≤ b.number := by
  induction ms generalizing g with
  | nil => exact ⟨fun l _ j b h => by simp [run] at h, fun i j a b _ h => by simp [run] at h⟩
  | cons m l ih =>
    rw [run_cons]
    dsimp only
    by_cases hm : due s g.last (m.count s.measure) = true
    · rw [save_due s g m hm]
      dsimp only
      obtain ⟨h1, h2⟩ := ih ⟨write s g.dir ⟨s.filename, m.count s.measure⟩ m.state m.now, some (m.count s.measure)⟩
      have hd : ∀ l, g.last = some l → (l : Int) + s.interval ≤ m.count s.measure := by
        intro l hl
        rw [hl] at hm
        simp only [due, decide_eq_true_iff] at hm
        omega
      refine ⟨?_, ?_⟩
      · intro l' hl j b hb
        cases j with
        | zero =>
          rw [List.getElem?_cons_zero] at hb
          rw [← Option.some.inj (Option.some.inj hb)]
          exact hd l' hl
        | succ j =>
          rw [List.getElem?_cons_succ] at hb
          have := h1 _ rfl j b hb
          have := hd l' hl
          omega
      · intro i j a b hij ha hb
        cases j with
        | zero => omega
        | succ j =>
          rw [List.getElem?_cons_succ] at hb
          cases i with
          | zero =>
            rw [List.getElem?_cons_zero] at ha
            rw [← Option.some.inj (Option.some.inj ha)]
            exact h1 _ rfl j b hb
          | succ i =>
            rw [List.getElem?_cons_succ] at ha
            exact h2 i j a b (by omega) ha hb
    · rw [save_not s g m hm]
      dsimp only
      obtain ⟨h1, h2⟩ := ih g
      refine ⟨?_, ?_⟩
      · intro l' hl j b hb
        cases j with
        | zero => rw [List.getElem?_cons_zero] at hb; cases Option.some.inj hb
        | succ j => exact h1 l' hl j b (by rwa [List.getElem?_cons_succ] at hb)
      · intro i j a b hij ha hb
        cases j with
        | zero => omega
        | succ j =>
          rw [List.getElem?_cons_succ] at hb
          cases i with
          | zero => rw [List.getElem?_cons_zero] at ha; cases Option.some.inj ha
          | succ i =>
            rw [List.getElem?_cons_succ] at ha
            exact h2 i j a b (by omega) ha hb

/-- A call which writes nothing comes less than the interval after one which did. -/
theorem run_prompt (s : Settings) (g : Manager S) (ms : List (Moment S)) (j : Nat) (m : Moment S) (hm : ms[j]? = some m)
    (h : (run s g ms).2[j]? = some none) :
    (∃ l, g.last = some l ∧ (m.count s.measure : Int) < l + s.interval) ∨
    ∃ i a, i < j ∧ (run s g ms).2[i]? = some (some a) ∧ (m.count s.measure : Int) < a.number + s.interval := by
  induction ms generalizing g j with
  | nil => simp at hm
  | cons m' l ih =>
    rw [run_cons] at h ⊢
    dsimp only at h ⊢
    cases j with
    | zero =>
      rw [List.getElem?_cons_zero] at hm h
      rw [← Option.some.inj hm]
      by_cases hd : due s g.last (m'.count s.measure) = true
      · rw [save_due s g m' hd] at h
        cases Option.some.inj h
      · unfold due at hd
        split at hd
        · exact absurd rfl hd
        · rename_i l' hl
          rw [decide_eq_true_iff, Decidable.not_not] at hd
          exact .inl ⟨l', hl, hd⟩
    | succ j =>
      rw [List.getElem?_cons_succ] at hm h
      rcases ih (save s g m').1 j hm h with ⟨l', h1, h2⟩ | ⟨i, a, h1, h2, h3⟩
      · by_cases hd : due s g.last (m'.count s.measure) = true
        · rw [save_due s g m' hd] at h1 ⊢
          refine .inr ⟨0, _, by omega, rfl, ?_⟩
          rw [← Option.some.inj h1] at h2
          exact h2
        · rw [save_not s g m' hd] at h1
          exact .inl ⟨l', h1, h2⟩
      · exact .inr ⟨i + 1, a, by omega, by rw [List.getElem?_cons_succ]; exact h2, h3⟩

/-- A checkpoint has the name and number of its call. -/
theorem run_number (s : Settings) (g : Manager S) (ms : List (Moment S)) (j : Nat) (m : Moment S) (n : Name) (hm : ms[j]? = some m)
    (h : (run s g ms).2[j]? = some (some n)) : n = ⟨s.filename, m.count s.measure⟩ := by
  induction ms generalizing g j with
  | nil => simp at hm
  | cons m' l ih =>
    rw [run_cons] at h
    dsimp only at h
    cases j with
    | zero =>
      rw [List.getElem?_cons_zero] at hm h
      rw [← Option.some.inj hm]
      by_cases hd : due s g.last (m'.count s.measure) = true
      · rw [save_due s g m' hd] at h
        exact (Option.some.inj (Option.some.inj h)).symm
      · rw [save_not s g m' hd] at h
        cases Option.some.inj h
    | succ j =>
      rw [List.getElem?_cons_succ] at hm h
      exact ih _ j hm h

/-- The checkpoint written last is the latest, and complete. -/
theorem write_latest (s : Settings) (hk : 0 < s.keep) (d : Dir S) (n : Name) (x : S) (t : Int) : newest (write s d n x t) = .ok x := by
  obtain ⟨k, hk'⟩ : ∃ k : Nat, s.keep = k := ⟨s.keep.toNat, by omega⟩
  have hl : (write s d n x t).latest = some n := by
    unfold Dir.latest write
    dsimp only
    rw [hk', sweep_listed]
    unfold newestOf
    rw [List.getLast?_drop, if_neg (by rw [List.length_append, List.length_singleton]; omega), List.getLast?_append]
    rfl
  have hf : (write s d n x t).files.lookup n = some x := by
    unfold write
    dsimp only
    rw [List.filter_append, List.lookup_append]
    have h1 : ((d.files.filter (fun e => e.1 ≠ n)).filter
        (fun e => ¬ (sweep s.keep s.hours (d.listed.filter (fun e => e.1 ≠ n) ++ [(n, t)]) d.preserved).2.1.contains e.1)).lookup n = none := by
      rw [List.lookup_eq_none_iff]
      intro p hp
      have := (List.mem_filter.1 (List.mem_filter.1 hp).1).2
      rw [decide_eq_true_iff] at this
      simpa [bne_iff_ne] using fun h => this h.symm
    have h2 : n ∉ (sweep s.keep s.hours (d.listed.filter (fun e => e.1 ≠ n) ++ [(n, t)]) d.preserved).2.1 := by
      intro hn
      rw [hk'] at hn
      have h3 := sweep_deleted k s.hours _ _ n hn
      rw [List.length_append, List.length_singleton, List.take_append_of_le_length (by omega)] at h3
      obtain ⟨e, he, hen⟩ := List.mem_map.1 h3
      have := (List.mem_filter.1 (List.mem_of_mem_take he)).2
      rw [decide_eq_true_iff] at this
      exact this hen
    rw [h1, List.filter_cons, if_pos (by rw [decide_eq_true_iff, List.contains_iff_mem]; exact h2)]
    simp [List.lookup]
  unfold newest
  rw [hl]
  dsimp only
  rw [hf]

/-- The last checkpoint written is restored. -/
theorem run_newest (s : Settings) (hk : 0 < s.keep) (g : Manager S) (ms : List (Moment S)) :
    (∀ n x, (written (run s g ms).2 ms).getLast? = some (n, x) → newest (run s g ms).1.dir = .ok x) ∧
    (written (run s g ms).2 ms = [] → (run s g ms).1.dir = g.dir) := by
  induction ms generalizing g with
  | nil => exact ⟨fun n x h => by simp [run, written] at h, fun _ => rfl⟩
  | cons m l ih =>
    rw [run_cons]
    dsimp only
    by_cases hm : due s g.last (m.count s.measure) = true
    · rw [save_due s g m hm]
      dsimp only
      obtain ⟨h1, h2⟩ := ih ⟨write s g.dir ⟨s.filename, m.count s.measure⟩ m.state m.now, some (m.count s.measure)⟩
      have hw : ∀ outs, written (some ⟨s.filename, m.count s.measure⟩ :: outs) (m :: l) = (⟨s.filename, m.count s.measure⟩, m.state) :: written outs l :=
        fun _ => rfl
      rw [hw]
      refine ⟨?_, nofun⟩
      intro n x h
      rw [List.getLast?_cons] at h
      cases hl : (written (run s ⟨write s g.dir ⟨s.filename, m.count s.measure⟩ m.state m.now, some (m.count s.measure)⟩ l).2 l).getLast? with
      | none =>
        rw [hl] at h
        rw [h2 (List.getLast?_eq_none_iff.1 hl), ← (Prod.mk.inj (Option.some.inj h)).2]
        exact write_latest s hk g.dir _ _ _
      | some p =>
        rw [hl] at h
        have hp : p = (n, x) := Option.some.inj h
        exact h1 n x (by rw [hl, hp])
    · rw [save_not s g m hm]
      exact ih g

theorem lookup_put (key : String) (v : Value) (e : Entries) (k : String) :
    (put key v e).lookup k = if k = key then some v else e.lookup k := by
  induction e with
  | nil =>
    unfold put
    rw [List.lookup_cons]
    by_cases h : k = key
    · simp [h]
    · rw [beq_false_of_ne h, if_neg h]
  | cons p l ih =>
    obtain ⟨k', x⟩ := p
    unfold put
    by_cases hk : k' = key
    · rw [if_pos hk, List.lookup_cons, List.lookup_cons]
      by_cases h : k = key
      · simp [h, hk]
      · have h' : (k == k') = false := by rw [hk]; exact beq_false_of_ne h
        rw [h', if_neg h]
    · rw [if_neg hk, List.lookup_cons, List.lookup_cons, ih]
      by_cases h : k = key
      · have h' : (k == k') = false := by rw [h]; exact beq_false_of_ne (fun h => hk h.symm)
        rw [h', if_pos h]
      · rw [if_neg h]
        rw [if_neg h]

theorem keys_put (key : String) (v : Value) (e : Entries) (p : String × Value) (h : p ∈ put key v e) : p.1 = key ∨ ∃ q ∈ e, q.1 = p.1 := by
  induction e with
  | nil =>
    unfold put at h
    exact .inl (congrArg Prod.fst (List.mem_singleton.1 h))
  | cons q l ih =>
    obtain ⟨k', x⟩ := q
    unfold put at h
    split at h
    · rename_i hk
      rcases List.mem_cons.1 h with h | h
      · exact .inl (by rw [h]; exact hk)
      · exact .inr ⟨p, .tail _ h, rfl⟩
    · rcases List.mem_cons.1 h with h | h
      · exact .inr ⟨(k', x), .head _, by rw [h]⟩
      · rcases ih h with h | ⟨q, hq, h⟩
        · exact .inl h
        · exact .inr ⟨q, .tail _ hq, h⟩

/-- The checkpoint manager of a documented dictionary, with or without the attribute `load`. -/
theorem prepare_documented {name : String} {e : Entries} {s : Settings} (h : Documented name e s) {e' : Entries} (b : Bool)
    (hl : ∀ k ∈ attributes, e'.lookup k = e.lookup k) (hb : (e'.lookup "load").getD (.bool false) = .bool b) :
    prepare name e' = .ok { s with load := b } := by
  have hg : ∀ k ∈ attributes, get e' k = (e.lookup k).getD .none := fun k hk => by unfold get; rw [hl k hk]
  have h1 : text (get e' "directory") = .ok s.directory := by
    rw [hg _ (by decide), h.directory]
    rfl
  have h2 : filename name e' = .ok s.filename := by
    unfold filename
    rw [hg _ (by decide)]
    rcases h.filename with ⟨h, h'⟩ | h
    · rw [h, h']
      rfl
    · rw [h]
      rfl
  have h3 : number e' "max_checkpoints" 10 = .ok s.keep := by
    unfold number
    rw [hg _ (by decide)]
    rcases h.keep with ⟨h, h'⟩ | ⟨h, _⟩
    · rw [h, h']
      rfl
    · rw [h]
      rfl
  have h4 : measure e' = .ok s.measure := by
    unfold measure
    rw [hg _ (by decide)]
    rcases h.measure with ⟨h, h'⟩ | ⟨u, h, h'⟩
    · rw [h, h']
      rfl
    · rw [h]
      generalize s.measure = me at h'
      cases h' <;> rfl
  have h5 : number e' "frequency" 10 = .ok s.interval := by
    unfold number
    rw [hg _ (by decide), h.frequency]
    rfl
  have h6 : hours e' = .ok s.hours := by
    unfold hours
    rw [hg _ (by decide)]
    rcases h.hours with ⟨h, h'⟩ | ⟨z, h, h', h''⟩
    · rw [h, h']
      rfl
    · rw [h, h'']
      show Except.ok (if z = 0 then none else some z) = _
      rw [if_neg (by omega)]
  have h7 : ¬ s.keep ≤ 0 := by
    rcases h.keep with ⟨_, h⟩ | ⟨_, h⟩ <;> omega
  unfold prepare
  rw [h1, h2, h3, h4, h5, h6, hb]
  show (if s.keep ≤ 0 then _ else _) = _
  rw [if_neg h7]
  rfl

theorem lookup_none_of_keys {e : Entries} (h : ∀ p ∈ e, p.1 ∈ attributes) : e.lookup "load" = none := by
  rw [List.lookup_eq_none_iff]
  intro p hp
  have := h p hp
  rw [bne_iff_ne]
  intro hk
  rw [← hk] at this
  revert this
  decide

theorem configure_dict {name : String} {e : Entries} (hk : ∀ p ∈ e, p.1 ∈ known) (hd : (e.lookup "directory").isNone = false) {s : Settings}
    (hp : prepare name e = .ok s) : configure name (.dict e) = .ok (some s) := by
  have ha : accept (.dict e) = .ok (some e) := by
    unfold accept
    dsimp only
    rw [if_neg, if_neg]
    · rw [hd]
      exact nofun
    · rw [Decidable.not_not, List.all_eq_true]
      intro k hk'
      obtain ⟨p, h1, h2⟩ := List.mem_map.1 hk'
      rw [List.contains_iff_mem, ← h2]
      exact hk p h1
  unfold configure
  rw [ha]
  dsimp only
  rw [hp]

theorem attributes_known {k : String} (h : k ∈ attributes) : k ∈ known := by
  revert k
  decide

theorem prepare_rejects (name : String) (e : Entries)
    (h : (∃ z, e.lookup "directory" = some (.int z)) ∨ (∃ u, e.lookup "unit" = some (.str u) ∧ ∀ m, ¬ Unit_ u m) ∨
      ∃ z, e.lookup "max_checkpoints" = some (.int z) ∧ z ≤ 0) (s : Settings) : prepare name e ≠ .ok s := by
  intro hs
  unfold prepare at hs
  cases h1 : text (get e "directory") with
  | error _ => rw [h1] at hs; cases hs
  | ok d =>
    cases h2 : filename name e with
    | error _ => rw [h1, h2] at hs; cases hs
    | ok f =>
      cases h3 : number e "max_checkpoints" 10 with
      | error _ => rw [h1, h2, h3] at hs; cases hs
      | ok k =>
        cases h4 : measure e with
        | error _ => rw [h1, h2, h3, h4] at hs; cases hs
        | ok m =>
          cases h5 : number e "frequency" 10 with
          | error _ => rw [h1, h2, h3, h4, h5] at hs; cases hs
          | ok i =>
            cases h6 : hours e with
            | error _ => rw [h1, h2, h3, h4, h5, h6] at hs; cases hs
            | ok hh =>
              rw [h1, h2, h3, h4, h5, h6] at hs
              change (if k ≤ 0 then _ else _) = _ at hs
              rcases h with ⟨z, hz⟩ | ⟨u, hu, hn⟩ | ⟨z, hz, hz'⟩
              · unfold Verif.Saver.get at h1
                rw [hz] at h1
                cases h1
              · unfold Verif.Saver.measure Verif.Saver.get at h4
                rw [hu] at h4
                simp only [Option.getD_some] at h4
                rw [if_neg nofun] at h4
                split at h4
                · rename_i hx
                  exact hn .timesteps (by rw [Value.str.inj hx]; exact .timesteps)
                · split at h4
                  · rename_i hx
                    exact hn .episodes (by rw [Value.str.inj hx]; exact .episodes)
                  · split at h4
                    · rename_i hx
                      exact hn .updates (by rw [Value.str.inj hx]; exact .updates)
                    · cases h4
              · unfold number Verif.Saver.get at h3
                rw [hz] at h3
                change (if Value.int z = .none then _ else Except.ok z) = Except.ok k at h3
                rw [if_neg nofun] at h3
                rw [← Except.ok.inj h3, if_pos hz'] at hs
                cases hs

theorem configure_rejects (name : String) (e : Entries) (hp : ∀ s, prepare name e ≠ .ok s) : ∃ err, configure name (.dict e) = .error err := by
  unfold configure
  have ha : (∃ err, accept (.dict e) = .error err) ∨ accept (.dict e) = .ok (some e) := by
    unfold accept
    dsimp only
    split
    · exact .inl ⟨_, rfl⟩
    · split
      · exact .inl ⟨_, rfl⟩
      · exact .inr rfl
  rcases ha with ⟨err, ha⟩ | ha
  · rw [ha]
    exact ⟨err, rfl⟩
  · rw [ha]
    dsimp only
    cases hs : prepare name e with
    | error err => exact ⟨err, rfl⟩
    | ok s => exact absurd hs (hp s)

theorem configure_load {name : String} {e : Entries} {s : Settings} (h : Documented name e s) :
    configure name (.dict (put "load" (.bool true) e)) = .ok (some { s with load := true }) := by
  have hl : ∀ k ∈ attributes, (put "load" (.bool true) e).lookup k = e.lookup k := by
    intro k hk
    rw [lookup_put, if_neg]
    intro hk'
    rw [hk'] at hk
    revert hk
    decide
  refine configure_dict ?_ ?_ (prepare_documented h true hl (by rw [lookup_put, if_pos rfl]; rfl))
  · intro p hp
    rcases keys_put _ _ _ _ hp with h1 | ⟨q, h1, h2⟩
    · rw [h1]
      decide
    · rw [← h2]
      exact attributes_known (h.keys q h1)
  · rw [hl _ (by decide), h.directory]
    rfl

theorem prepare_loads {name : String} {e : Entries} {s : Settings} (h : prepare name e = .ok s) :
    s.load = ((e.lookup "load").getD (.bool false)).truth := by
  unfold prepare at h
  cases h1 : text (get e "directory") with
  | error x => rw [h1] at h; cases h
  | ok a =>
    cases h2 : filename name e with
    | error x => rw [h1, h2] at h; cases h
    | ok b =>
      cases h3 : number e "max_checkpoints" 10 with
      | error x => rw [h1, h2, h3] at h; cases h
      | ok c =>
        cases h4 : measure e with
        | error x => rw [h1, h2, h3, h4] at h; cases h
        | ok d =>
          cases h5 : number e "frequency" 10 with
          | error x => rw [h1, h2, h3, h4, h5] at h; cases h
          | ok i =>
            cases h6 : hours e with
            | error x => rw [h1, h2, h3, h4, h5, h6] at h; cases h
            | ok j =>
              rw [h1, h2, h3, h4, h5, h6] at h
              change (if c ≤ 0 then Except.error Err.manager else _) = _ at h
              split at h
              · cases h
              · cases h
                rfl

/-- With the entry set, the agent is loaded. -/
theorem configure_put {name : String} {e : Entries} {s : Settings} (h : configure name (.dict (put "load" (.bool true) e)) = .ok (some s)) :
    s.load = true := by
  unfold configure accept at h
  dsimp only at h
  split at h
  · cases h
  · cases h
  · rename_i e' he
    split at he
    · cases he
    · split at he
      · cases he
      · cases he
        split at h
        · cases h
        · rename_i s' hs
          cases h
          rw [prepare_loads hs, lookup_put, if_pos rfl]
          rfl

theorem restore_ok {directory : String} {d : Dir S} {n : Name} {x : S} (hl : d.latest = some n) (h : d.files.lookup n = some x)
    (hd : directory.toList.getLast? ≠ some '/') : restore directory d = .ok x := by
  unfold restore newest
  rw [hl]
  dsimp only
  rw [h]
  dsimp only
  rw [if_pos]
  unfold splits
  rw [decide_eq_true hd]
  rfl

theorem restore_missing {directory : String} {d : Dir S} (hl : d.listed = []) : restore directory d = .error .missing := by
  unfold restore newest Dir.latest
  rw [hl]
  rfl

end Verif.Saver
