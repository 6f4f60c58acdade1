import Verif.Prep.Lemmas

/-! # Properties of the stateful preprocessing layers (C27, C28) -/

namespace Verif.Props.Prep

open Verif.Prep

variable {α : Type}

/-! ## C27: sequence -/

/-- C27: in a calm history (see `Calm`) every state is preprocessed to the stack of the last `len` observations of its own episode.
Missing: histories in which episodes overlap, independent act is used, or the agent is reset within an episode (violations below). -/
theorem sequence_stack_partial (len w : Nat) (fill : α) (hl : 0 < len) (h : List (Event (List α))) (p : Nat) (x : List α)
    (hw : ∀ e ∈ h ++ [.act [(p, x)]], okEvent (fun x => x.length = w) e) (hc : Calm (h ++ [.act [(p, x)]])) :
    (sequence len w fill).result h (.act [(p, x)]) = some [lastStack len (own p (h ++ [.act [(p, x)]]))] := by
  have hf := sequence_follows len w fill hl
  have hR := follows_run hf h fun e he => hw e (by simp [he])
  have := (follows_step hf hR (.act [(p, x)]) (hw _ (by simp))).2.1 p x rfl
  rw [← calm_act hc]
  exact this

/-- C27: for every history, the layer stacks the observations since the last end of any episode, whoever made them. -/
theorem sequence_stream (len w : Nat) (fill : α) (hl : 0 < len) (h : List (Event (List α))) (p : Nat) (x : List α)
    (hw : ∀ e ∈ h ++ [.act [(p, x)]], okEvent (fun x => x.length = w) e) :
    (sequence len w fill).result h (.act [(p, x)]) = some [lastStack len (stream h ++ [x])] := by
  have hf := sequence_follows len w fill hl
  have hR := follows_run hf h fun e he => hw e (by simp [he])
  exact (follows_step hf hR (.act [(p, x)]) (hw _ (by simp))).2.1 p x rfl

/-- C27: batches of more than one observation are refused and leave the state as it was. -/
theorem sequence_refuses_batches (len w : Nat) (fill : α) (st : SeqState α) (batch : List (Nat × List α)) (hb : 1 < batch.length) :
    (sequence len w fill).step st (.act batch) = (st, none) := by
  have : 1 < (batch.map (·.2)).length := by simpa using hb
  simp only [Layer.step, sequence, if_pos this]

/-- What the stack contains: `len` observations, the latest last, and the one `j` places before it is observation `t - j`, or the
first one. -/
theorem lastStack_entry (len w : Nat) (os : List (List α)) (hne : os ≠ []) (hw : ∀ x ∈ os, x.length = w) (j : Nat) (hj : j < len) :
    ((lastStack len os).drop (w * (len - 1 - j))).take w = os.getD (os.length - 1 - j) [] := by
  have hpos : 0 < os.length := List.length_pos_iff.mpr hne
  obtain ⟨m, hm⟩ : ∃ m, m = len - 1 - j := ⟨_, rfl⟩
  have hlen : len = m + 1 + j := by omega
  rw [← hm]
  unfold lastStack
  have hg : ∀ k, k < len → (os.getD (os.length + k - len) []).length = w := fun k hk => getD_length hw (by omega)
  have hsplit : List.range len = List.range m ++ m :: (List.range j).map (m + 1 + ·) := by
    rw [hlen, List.range_add, List.range_succ, List.append_assoc, List.singleton_append]
  rw [hsplit, List.map_append, List.flatten_append, List.map_cons, List.flatten_cons]
  have hl1 := flatten_length (n := m) fun k hk => hg k (by omega)
  rw [List.drop_append_of_le_length (by omega), List.drop_eq_nil_of_le (by omega), List.nil_append]
  have hgm := hg m (by omega)
  rw [List.take_append_of_le_length (by omega), List.take_of_length_le (by omega)]
  congr 1
  omega

/-- Two frames per stack, one interaction, two episodes. -/
def twoEpisodes : List (Event (List Nat)) := [.act [(0, [1])], .act [(0, [2])], .terminal 0, .act [(0, [3])]]

theorem twoEpisodes_own : own 0 (twoEpisodes ++ [.act [(0, [4])]]) = [[3], [4]] := by decide

example : (sequence 3 1 0).result twoEpisodes (.act [(0, [4])]) = some [[3, 3, 4]] ∧ lastStack 3 [[3], [4]] = [3, 3, 4] := by decide

/-- A single interaction that ends only begun episodes is calm, for instance `twoEpisodes`. -/
theorem calm_single {obs : Type} (p : Nat) (h : List (Event obs))
    (hs : ∀ h1 e h2, h = h1 ++ e :: h2 → (∃ x, e = .act [(p, x)]) ∨ e = .terminal p ∧ own p h1 ≠ [] ∨ e = .reset ∧ own p h1 = []) : Calm h := by
  have hother : ∀ h1 h2, h = h1 ++ h2 → ∀ q, q ≠ p → own q h1 = [] := by
    intro h1
    induction h1 using snoc_ind with
    | nil => intros; rfl
    | snoc h1 e ih =>
      intro h2 he q hq
      have ih := ih (e :: h2) (by rw [he]; simp) q hq
      rw [own_snoc, ih]
      have hpq : p ≠ q := fun h => hq h.symm
      rcases hs h1 e h2 (by rw [he]; simp) with ⟨x, rfl⟩ | ⟨rfl, _⟩ | ⟨rfl, _⟩
      · simp [ownStep, hpq]
      · simp [ownStep]
      · rfl
  intro h1 e h2 he
  rcases hs h1 e h2 he with ⟨x, rfl⟩ | ⟨rfl, h0⟩ | ⟨rfl, h0⟩
  · intro b hb q hq
    simp at hb; subst hb
    exact hother h1 _ he q hq
  · exact h0
  · intro q
    by_cases hq : q = p
    · rw [hq]; exact h0
    · exact hother h1 _ he q hq

/-! ### Violations -/

/-- Overlapping episodes: the second interaction sees an observation of the first one. -/
theorem overlap_violation : ∃ h : List (Event (List Nat)), own 1 (h ++ [.act [(1, [7])]]) = [[7]] ∧
    (sequence 2 1 0).result h (.act [(1, [7])]) = some [[5, 7]] :=
  ⟨[.act [(0, [5])]], by decide, by decide⟩

/-- The end of another episode makes a running one forget its observations. -/
theorem other_terminal_violation : ∃ h : List (Event (List Nat)), own 0 (h ++ [.act [(0, [7])]]) = [[5], [7]] ∧
    (sequence 2 1 0).result h (.act [(0, [7])]) = some [[7, 7]] :=
  ⟨[.act [(0, [5])], .act [(1, [6])], .terminal 1], by decide, by decide⟩

/-- Independent act changes what the running episode sees. -/
theorem independent_violation : ∃ h : List (Event (List Nat)), own 0 (h ++ [.act [(0, [7])]]) = [[5], [7]] ∧
    (sequence 2 1 0).result h (.act [(0, [7])]) = some [[9, 7]] :=
  ⟨[.act [(0, [5])], .independent [[9]]], by decide, by decide⟩

/-- `Agent.reset` does not reset the layer, so the next episode sees the previous one. -/
theorem agent_reset_violation : ∃ h : List (Event (List Nat)), own 0 (h ++ [.act [(0, [7])]]) = [[7]] ∧
    (sequence 2 1 0).result h (.act [(0, [7])]) = some [[5, 7]] :=
  ⟨[.act [(0, [5])], .reset], by decide, by decide⟩

/-! ## C28: deltafier -/

/-- C28: in a calm history every state is preprocessed to its difference to the previous observation of its own episode, and the first
one to zero. Missing: as for `sequence_stack_partial`. -/
theorem delta_partial (concatenate : Bool) (w : Nat) (h : List (Event (List Rat))) (p : Nat) (x : List Rat)
    (hc : Calm (h ++ [.act [(p, x)]])) :
    (deltafier concatenate w).result h (.act [(p, x)]) = some [lastDelta concatenate (own p (h ++ [.act [(p, x)]]))] := by
  have hf := deltafier_follows concatenate w
  have hok : ∀ e : Event (List Rat), okEvent (fun _ => True) e := fun e => by cases e <;> simp [okEvent]
  have hR := follows_run hf h fun e _ => hok e
  have := (follows_step hf hR (.act [(p, x)]) (hok _)).2.1 p x rfl
  rw [← calm_act hc]
  exact this

/-- C28: for every history, differences are taken to the previous observation since the last end of any episode, whoever made it. -/
theorem delta_stream (concatenate : Bool) (w : Nat) (h : List (Event (List Rat))) (p : Nat) (x : List Rat) :
    (deltafier concatenate w).result h (.act [(p, x)]) = some [lastDelta concatenate (stream h ++ [x])] := by
  have hf := deltafier_follows concatenate w
  have hok : ∀ e : Event (List Rat), okEvent (fun _ => True) e := fun e => by cases e <;> simp [okEvent]
  have hR := follows_run hf h fun e _ => hok e
  exact (follows_step hf hR (.act [(p, x)]) (hok _)).2.1 p x rfl

/-- C28: batches of more than one observation are refused and leave the state as it was. -/
theorem delta_refuses_batches (concatenate : Bool) (w : Nat) (st : DeltaState) (batch : List (Nat × List Rat)) (hb : 1 < batch.length) :
    (deltafier concatenate w).step st (.act batch) = (st, none) := by
  have : 1 < (batch.map (·.2)).length := by simpa using hb
  simp only [Layer.step, deltafier, if_pos this]

/-- The differences of an episode. -/
def deltas (os : List (List Rat)) : List (List Rat) := (List.range os.length).map fun t => lastDelta false (os.take (t + 1))

/-- C28: the first state of an episode maps to zero. -/
theorem first_delta (x : List Rat) : lastDelta false [x] = List.replicate x.length 0 := by
  simp [lastDelta, List.map_const']

/-- C28: the differences of an episode telescope: in every component their sum is the latest minus the first observation. -/
theorem deltas_telescope (w : Nat) (o : List Rat) (os : List (List Rat)) (hw : ∀ x ∈ o :: os, x.length = w) (i : Nat) (hi : i < w) :
    ((deltas (o :: os)).map fun d => d.getD i 0).sum = ((o :: os).getLastD []).getD i 0 - o.getD i 0 := by
  have hsnoc : ∀ (l : List (List Rat)) x, deltas (l ++ [x]) = deltas l ++ [lastDelta false (l ++ [x])] := fun l x => by
    unfold deltas
    rw [List.length_append, List.length_singleton, List.range_succ, List.map_append, List.map_singleton]
    congr 1
    · apply List.map_congr_left
      intro t ht
      have ht : t < l.length := List.mem_range.mp ht
      rw [List.take_append_of_le_length (by omega)]
    · rw [List.take_of_length_le (by simp)]
  induction os using snoc_ind with
  | nil =>
    have hlen : i < o.length := by rw [hw o (by simp)]; exact hi
    simp only [deltas, List.length_singleton, List.range_one, List.map_cons, List.map_nil, List.take_succ_cons, List.take_zero, first_delta,
      List.sum_cons, List.sum_nil, List.getLastD_cons, List.getLastD_nil]
    rw [List.getD_eq_getElem?_getD, List.getElem?_replicate, if_pos hlen]
    simp only [Option.getD_some]
    grind
  | snoc os x ih =>
    have ih := ih fun y hy => hw y (by simp only [List.mem_cons, List.mem_append] at hy ⊢; grind)
    rw [← List.cons_append, hsnoc, List.map_append, List.sum_append, ih]
    have e1 : ((o :: os) ++ [x]).getLastD [] = x := by rw [List.getLastD_eq_getLast?, List.getLast?_append]; rfl
    have e2 : ¬ ((o :: os) ++ [x]).length ≤ 1 := by simp
    simp only [lastDelta, e1, if_neg e2, Bool.false_eq_true, if_false, List.dropLast_concat, List.map_cons, List.map_nil, List.sum_cons, List.sum_nil]
    have hx : i < x.length := by rw [hw x (by simp)]; exact hi
    have hy : i < ((o :: os).getLastD []).length := by
      have : (o :: os).getLastD [] ∈ o :: os := by
        rw [List.getLastD_eq_getLast?, List.getLast?_eq_some_getLast (by simp)]
        exact List.getLast_mem _
      rw [hw _ (by simp only [List.mem_cons, List.mem_append] at this ⊢; grind)]; exact hi
    generalize (o :: os).getLastD [] = y at *
    have e3 : (minus x y).getD i 0 = x.getD i 0 - y.getD i 0 := by
      simp only [minus, List.getD_eq_getElem?_getD, List.getElem?_zipWith, List.getElem?_eq_getElem hx, List.getElem?_eq_getElem hy]
      rfl
    rw [e3]
    grind

example : deltas [[1, 5], [4, 5], [2, 7]] = [[0, 0], [3, 0], [-2, 2]] := by decide +kernel

example : (deltafier true 1).result [.act [(0, [1])], .act [(0, [2])], .terminal 0, .act [(0, [3])]] (.act [(0, [7])]) = some [[7, 4]] := by
  decide +kernel

/-! ### Violations -/

/-- Overlapping episodes: the first state of an episode is not mapped to zero. -/
theorem delta_overlap_violation : ∃ h : List (Event (List Rat)), own 1 (h ++ [.act [(1, [7])]]) = [[7]] ∧
    (deltafier false 1).result h (.act [(1, [7])]) = some [[2]] :=
  ⟨[.act [(0, [5])]], by decide +kernel, by decide +kernel⟩

/-- The end of another episode sets a later state of a running one to zero, so that its differences no longer telescope. -/
theorem delta_other_terminal_violation : ∃ h : List (Event (List Rat)), own 0 (h ++ [.act [(0, [7])]]) = [[5], [7]] ∧
    (deltafier false 1).result h (.act [(0, [7])]) = some [[0]] :=
  ⟨[.act [(0, [5])], .act [(1, [6])], .terminal 1], by decide +kernel, by decide +kernel⟩

/-- Independent act and `Agent.reset` disturb the differences as they do the stacks. -/
theorem delta_disturbed_violation :
    (∃ h : List (Event (List Rat)), own 0 (h ++ [.act [(0, [7])]]) = [[5], [7]] ∧
      (deltafier false 1).result h (.act [(0, [7])]) = some [[-2]]) ∧
    (∃ h : List (Event (List Rat)), own 0 (h ++ [.act [(0, [7])]]) = [[7]] ∧
      (deltafier false 1).result h (.act [(0, [7])]) = some [[2]]) :=
  ⟨⟨[.act [(0, [5])], .independent [[9]]], by decide +kernel, by decide +kernel⟩,
   ⟨[.act [(0, [5])], .reset], by decide +kernel, by decide +kernel⟩⟩

end Verif.Props.Prep
