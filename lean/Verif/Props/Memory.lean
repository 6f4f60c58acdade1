import Verif.Memory.Facts

/-!
# Properties C01-C07: the replay memory

`Queue.run cap z ops` is the modelled memory after the operations `ops`; `Log.run cap ops` is the
specification: the list of accepted timesteps. `z` is the initial content of the buffers.
-/

namespace Verif.Props.Memory

open Verif.Memory

variable {α : Type}

/-- A small history used in the non-vacuity examples: capacity 5, seven timesteps in three batches,
two finished episodes and an unfinished one. -/
def exOps : List (Op Nat) :=
  [.enqueue [(10, 0), (11, 0), (12, 1)], .enqueue [(13, 0), (14, 2)], .enqueue [(15, 0), (16, 0)]]

theorem exOps_codes : ∀ o ∈ exOps, CodesOk o := by
  intro o ho
  simp only [exOps, List.mem_cons, List.not_mem_nil, or_false] at ho
  rcases ho with rfl | rfl | rfl <;> simp [CodesOk]

/-! ## C01 -/

/-- C01: a batch is accepted exactly if it is non-empty, fits, and has episode ends only in the last
place. -/
theorem enqueue_accepts_iff {cap : Nat} (hc : 0 < cap) (z : α) (ops : List (Op α)) (hops : ∀ o ∈ ops, CodesOk o)
    (xs : List (Step α)) (hxs : ∀ x ∈ xs, x.2 ≤ 2) :
    (∃ q', (Queue.run cap z ops).enqueue xs = .ok q') ↔ Acceptable cap xs := by
  have h := runInv hc z ops hops
  obtain ⟨h1, h2⟩ := h.rep.enqueue xs hxs
  rw [h.cap_eq] at h1 h2
  constructor
  · rintro ⟨q', hq⟩
    by_cases ha : Acceptable cap xs
    · exact ha
    · obtain ⟨e, he⟩ := h2 ha; rw [hq] at he; cases he
  · intro ha
    obtain ⟨q', e, _⟩ := h1 ha
    exact ⟨q', e⟩

/-- C01: after any history, the addresses of the stored timesteps are distinct slots, reading them
oldest to newest yields exactly the last `min cap total` timesteps of the log, and every other slot
still holds the initial value. -/
theorem memory_keeps_most_recent {cap : Nat} (hc : 0 < cap) (z : α) (ops : List (Op α))
    (hops : ∀ o ∈ ops, CodesOk o) :
    let q := Queue.run cap z ops
    let items := (Log.run cap ops).items
    let S := stored cap items
    S = items.drop (items.length - cap) ∧
    q.vals.length = cap ∧
    ((List.range S.length).map (addr cap items)).Nodup ∧
    (∀ a ∈ (List.range S.length).map (addr cap items), a < cap) ∧
    q.retrieve ((List.range S.length).map (addr cap items)) = some (S.map Prod.fst) ∧
    (∀ a, a < cap → a ∉ (List.range S.length).map (addr cap items) → q.vals[a]? = some z) := by
  have h := runInv hc z ops hops
  refine ⟨rfl, by rw [h.rep.lenV, h.cap_eq], ?_, ?_, ?_, ?_⟩
  · rw [List.nodup_iff_pairwise_ne, List.pairwise_map]
    have hp : (List.range (stored cap (Log.run cap ops).items).length).Pairwise (fun a b => a < b) := List.pairwise_lt_range
    refine List.Pairwise.imp_of_mem ?_ hp
    intro a b ha hb hlt he
    have := addr_inj _ (List.mem_range.mp ha) (List.mem_range.mp hb) he
    omega
  · intro a ha
    obtain ⟨i, _, rfl⟩ := List.mem_map.mp ha
    exact addr_lt hc _ _
  · have := h.read 0 (stored cap (Log.run cap ops).items).length (by omega)
    rw [rangeFrom_zero', List.drop_zero, List.take_length] at this
    exact this
  · intro a ha hn
    refine h.unused a ha ?_
    intro i hi he
    exact hn (List.mem_map.mpr ⟨i, List.mem_range.mpr hi, he⟩)

example : (stored 5 (Log.run 5 exOps).items).map Prod.fst = [12, 13, 14, 15, 16] ∧
    (Queue.run 5 0 exOps).retrieve ((List.range 5).map (addr 5 (Log.run 5 exOps).items)) = some [12, 13, 14, 15, 16] := by
  decide

/-! ## C02 -/

/-- C02: the episode index lists exactly the addresses of the stored episode ends, oldest first
(preceded by the artificial end before the first timestep as long as that has not been overwritten),
and the episode count is the number of finished episodes inside the last `cap - 1` timesteps. -/
theorem episode_index_consistent_partial {cap : Nat} (hc : 0 < cap) (z : α) (ops : List (Op α))
    (hops : ∀ o ∈ ops, CodesOk o) :
    let q := Queue.run cap z ops
    let items := (Log.run cap ops).items
    q.ti.take (q.ec + 1).toNat =
      (if items.length < cap then [cap - 1] else []) ++ (endPositions (stored cap items)).map (addr cap items) ∧
    (q.ti.take (q.ec + 1).toNat).length = (q.ec + 1).toNat ∧
    (q.ti.take (q.ec + 1).toNat).Nodup ∧
    max q.ec 0 = ((retrievable cap items).length : Int) := by
  have h := runInv hc z ops hops
  refine ⟨h.ends, ?_, ?_, h.ec_max⟩
  · rw [List.length_take, h.rep.lenTi]
    have := h.rep.ecEq
    have h3 := countNonzero_le ((window cap z (Log.run cap ops).items).map Prod.snd)
    rw [List.length_map, window_length hc] at h3
    have := h.cap_eq
    omega
  · rw [h.ends]
    have hl := stored_length cap (Log.run cap ops).items
    have hlt : ∀ i ∈ endPositions (stored cap (Log.run cap ops).items), i < (stored cap (Log.run cap ops).items).length := by
      intro i hi
      unfold endPositions at hi
      exact List.mem_range.mp (List.mem_filter.mp hi).1
    have hmap : ((endPositions (stored cap (Log.run cap ops).items)).map (addr cap (Log.run cap ops).items)).Nodup := by
      rw [List.nodup_iff_pairwise_ne, List.pairwise_map]
      have hp : (endPositions (stored cap (Log.run cap ops).items)).Pairwise (fun a b => a < b) := by
        unfold endPositions
        exact List.Pairwise.filter _ List.pairwise_lt_range
      refine List.Pairwise.imp_of_mem ?_ hp
      intro a b ha hb hab he
      have := addr_inj _ (hlt a ha) (hlt b hb) he
      omega
    split
    · rename_i hcap
      rw [List.singleton_append, List.nodup_cons]
      refine ⟨?_, hmap⟩
      intro hmem
      obtain ⟨i, hi, he⟩ := List.mem_map.mp hmem
      have := hlt i hi
      unfold addr at he
      rw [show (Log.run cap ops).items.length - (stored cap (Log.run cap ops).items).length + i = i by omega,
        Nat.mod_eq_of_lt (by omega)] at he
      omega
    · simpa using hmap

example : let q := Queue.run 5 0 exOps
    q.ec = 1 ∧ q.ti.take 2 = [2, 4] ∧ retrievable 5 (Log.run 5 exOps).items = [[(13, 0), (14, 2)]] := by decide

/-! ## C04 -/

/-- C04: a batch of `n` episodes from the recent memory is rejected exactly if no episode is stored,
and otherwise is the concatenation of the `min n stored` most recent of the finished episodes that lie
within the last `cap - 1` timesteps, with their values and terminal codes. -/
theorem recent_episodes_partial {cap : Nat} (hc : 0 < cap) (z : α) (ops : List (Op α)) (hops : ∀ o ∈ ops, CodesOk o) (n : Nat) :
    let q := Queue.run cap z ops
    let E := retrievable cap (Log.run cap ops).items
    (E = [] → ∃ e, q.recentEpisodes n = .error e) ∧
    (E ≠ [] → ∃ idx, q.recentEpisodes n = .ok idx ∧
      q.retrieve idx = some ((lastN n E).flatten.map Prod.fst) ∧
      q.retrieveTerminal idx = some ((lastN n E).flatten.map Prod.snd)) := by
  have h := runInv hc z ops hops
  have hm := h.ec_max
  have hr := retrievable_window hc z (Log.run cap ops).items
  simp only
  generalize hE : retrievable cap (Log.run cap ops).items = E at *
  constructor
  · intro e
    refine ⟨"assert_greater_equal", ?_⟩
    unfold Queue.recentEpisodes
    rw [if_pos (by rw [e] at hm; simp at hm; omega)]
  · intro hne
    have hpos : 0 < E.length := List.length_pos_iff.mpr hne
    have hec : (Queue.run cap z ops).ec = E.length := by omega
    have hes := h.ec
    unfold episodes at hr hes
    obtain ⟨idx, h1, h2, h3⟩ := h.rep.episodeRange (E.length - min n E.length) E.length (by omega) (by omega)
    refine ⟨idx, ?_, ?_, ?_⟩
    · unfold Queue.recentEpisodes
      rw [if_neg (by omega)]
      simp only
      rw [hec, show ((E.length : Int) - min (n : Int) E.length).toNat = E.length - min n E.length by omega,
        Int.toNat_natCast, h1]
    · rw [h2]
      congr 3
      rw [List.take_of_length_le (by omega), hr]
      unfold lastN
      rw [List.drop_tail, List.length_tail]
      congr 1
      omega
    · unfold Queue.retrieveTerminal
      rw [h3]
      congr 3
      rw [List.take_of_length_le (by omega), hr]
      unfold lastN
      rw [List.drop_tail, List.length_tail]
      congr 1
      omega

/-- C04 for the replay memory: whatever episode numbers the random source yields (within its range),
the batch consists of whole stored episodes. -/
theorem replay_episodes_partial {cap : Nat} (hc : 0 < cap) (z : α) (ops : List (Op α)) (hops : ∀ o ∈ ops, CodesOk o)
    (n : Nat) (rnd : Nat → Nat) :
    let q := Queue.run cap z ops
    let E := retrievable cap (Log.run cap ops).items
    (∀ k, rnd k < E.length) → E ≠ [] →
    ∃ idx, q.replayEpisodes n rnd = .ok idx ∧
      q.retrieve idx = some ((((List.range (min n E.length)).map (fun k => (E[rnd k]?).getD [])).flatten).map Prod.fst) := by
  have h := runInv hc z ops hops
  have hm := h.ec_max
  have hr := retrievable_window hc z (Log.run cap ops).items
  simp only
  generalize hE : retrievable cap (Log.run cap ops).items = E at *
  intro hrnd hne
  have hpos : 0 < E.length := List.length_pos_iff.mpr hne
  have hec : (Queue.run cap z ops).ec = E.length := by omega
  have hes := h.ec
  unfold episodes at hr hes
  unfold Queue.replayEpisodes
  rw [if_neg (by omega)]
  simp only
  rw [hec, show (min (n : Int) E.length).toNat = min n E.length by omega]
  suffices ∀ ks : List Nat, ∃ ls, ks.mapM (fun k => (Queue.run cap z ops).episodeRange (rnd k) (rnd k + 1)) = some ls ∧
      (Queue.run cap z ops).retrieve ls.flatten = some (((ks.map (fun k => (E[rnd k]?).getD [])).flatten).map Prod.fst) by
    obtain ⟨ls, h1, h2⟩ := this (List.range (min n E.length))
    rw [h1]
    exact ⟨_, rfl, h2⟩
  intro ks
  induction ks with
  | nil => exact ⟨[], rfl, rfl⟩
  | cons k ks ih =>
    obtain ⟨ls, h1, h2⟩ := ih
    have hk := hrnd k
    obtain ⟨idx, g1, g2, _⟩ := h.rep.episodeRange (rnd k) (rnd k + 1) (by omega) (by omega)
    refine ⟨idx :: ls, ?_, ?_⟩
    · rw [List.mapM_cons, g1, h1]; rfl
    · simp only [List.map_cons, List.flatten_cons, List.map_append, Queue.retrieve] at h2 ⊢
      refine gather_append _ _ _ _ _ ?_ h2
      rw [Queue.retrieve] at g2
      rw [g2]
      congr 2
      have hlt : rnd k + 1 < (splitEps (window cap z (Log.run cap ops).items)).1.length := by omega
      rw [hr, List.getElem?_tail, List.getElem?_eq_getElem hlt, List.take_add_one, List.getElem?_eq_getElem hlt,
        List.drop_left' (by simp; omega)]
      simp

example : let q := Queue.run 5 0 exOps
    (q.recentEpisodes 3).toOption.bind q.retrieve = some [13, 14] ∧
    (q.replayEpisodes 3 (fun _ => 0)).toOption.bind q.retrieve = some [13, 14] := by decide

/-! ## C03 -/

/-- The full statement of C03 as a predicate on a memory state and the stored timesteps `S`: if enough is
stored, the batch is the `min n available` most recent timesteps leaving room for both horizons. -/
def RecentTimestepsOk (q : Queue α) (S : List (Step α)) (n past future : Nat) : Prop :=
  (S.length < past + future + 1 → ∃ e, q.recentTimesteps n past future = .error e) ∧
  (past + future + 1 ≤ S.length → ∃ idx, q.recentTimesteps n past future = .ok idx ∧
    q.retrieve idx = some ((lastN n ((S.drop past).take (S.length - past - future))).map Prod.fst))

/-- C03, partial: it holds whenever the number of stored episodes plus both horizons does not exceed the
number of stored timesteps. Missing: the opposite case, in which the code takes the episode count as the number of
available timesteps; see `recent_timesteps_violation`. -/
theorem recent_timesteps_partial {cap : Nat} (hc : 0 < cap) (z : α) (ops : List (Op α)) (hops : ∀ o ∈ ops, CodesOk o)
    (n past future : Nat) :
    let S := stored cap (Log.run cap ops).items
    (retrievable cap (Log.run cap ops).items).length + past + future ≤ S.length →
    RecentTimestepsOk (Queue.run cap z ops) S n past future := by
  have h := runInv hc z ops hops
  have hm := h.ec_max
  have hsl := stored_length cap (Log.run cap ops).items
  intro S hroom
  have hS : S = stored cap (Log.run cap ops).items := rfl
  rw [← hS] at hsl
  have hnum : (Queue.run cap z ops).numTimesteps past future = (S.length : Int) - (past + future) := by
    unfold Queue.numTimesteps
    rw [h.cap_eq, h.bi_eq, ← hsl]; omega
  constructor
  · intro hlt
    refine ⟨"assert_greater_equal", ?_⟩
    unfold Queue.recentTimesteps
    rw [hnum]
    simp only
    rw [if_pos (by omega)]
  · intro hge
    unfold Queue.recentTimesteps
    rw [hnum]
    simp only
    rw [if_neg (by omega)]
    refine ⟨_, rfl, ?_⟩
    have hmin : (min (n : Int) ((S.length : Int) - (past + future))) = ((min n (S.length - past - future) : Nat) : Int) := by
      omega
    rw [hmin, Int.toNat_natCast]
    generalize hmm : min n (S.length - past - future) = m
    have hidx : (List.range m).map (fun (k : Nat) =>
        ((((Queue.run cap z ops).bi : Int) - (m : Int) + (k : Int) - (future : Int)) % ((Queue.run cap z ops).cap : Int)).toNat) =
        (rangeFrom (S.length - future - m) m).map (addr cap (Log.run cap ops).items) := by
      simp only [rangeFrom, List.map_map]
      apply List.map_congr_left
      intro k hk
      have hk := List.mem_range.mp hk
      simp only [Function.comp, addr]
      rw [h.bi_eq, h.cap_eq, ← hS]
      rw [show (((Log.run cap ops).items.length : Int) - (m : Int) + (k : Int) - (future : Int)) =
        (((Log.run cap ops).items.length - S.length + (S.length - future - m + k) : Nat) : Int) by omega,
        ← Int.natCast_emod, Int.toNat_natCast]
    rw [hidx, h.read _ _ (by rw [← hS]; omega), ← hS]
    congr 2
    unfold lastN
    rw [List.length_take, List.length_drop, List.drop_take, List.drop_drop]
    congr 1
    · omega
    · congr 1; omega

/-- C03 without horizons: holds for every history. -/
theorem recent_timesteps_no_horizon {cap : Nat} (hc : 0 < cap) (z : α) (ops : List (Op α)) (hops : ∀ o ∈ ops, CodesOk o)
    (n : Nat) :
    RecentTimestepsOk (Queue.run cap z ops) (stored cap (Log.run cap ops).items) n 0 0 := by
  have h := runInv hc z ops hops
  have h1 := h.ec_max
  have h2 := h.ec_le
  exact recent_timesteps_partial hc z ops hops n 0 0 (by omega)

example : let q := Queue.run 5 0 exOps
    (q.recentTimesteps 2 1 1).toOption.bind q.retrieve = some [14, 15] := by decide

/-- C03 fails in general: with capacity 10 and one finished episode of three timesteps, a request with
future horizon 5 returns a slot that was never written (it reads back the initial value 0). -/
theorem recent_timesteps_violation :
    ∃ (cap : Nat) (ops : List (Op Nat)) (n past future : Nat) (idx : List Nat), 0 < cap ∧
      (∀ o ∈ ops, CodesOk o) ∧ AllAccepted cap ops ∧
      (Queue.run cap 0 ops).recentTimesteps n past future = .ok idx ∧
      (Queue.run cap 0 ops).retrieve idx = some [0] ∧
      0 ∉ (Log.run cap ops).items.map Prod.fst := by
  refine ⟨10, [.enqueue [(1, 0), (2, 0), (3, 1)]], 1, 0, 5, [7], by decide, ?_, ?_, by rfl, by rfl, by decide⟩
  · intro o ho
    simp at ho; subst ho; simp [CodesOk]
  · intro xs hx
    simp at hx; subst hx; decide

/-! ## C05 -/

/-- The full statement of C05 for one request: every sampled index is the address of a stored timestep with
room for both horizons inside the stored window. -/
def ReplayTimestepsOk (q : Queue α) (cap : Nat) (items : List (Step α)) (n past future : Nat) (rnd : Nat → Nat) : Prop :=
  ∀ idx, q.replayTimesteps n past future rnd = .ok idx →
    ∀ a ∈ idx, ∃ i, past ≤ i ∧ i + future < (stored cap items).length ∧ a = addr cap items i ∧
      q.vals[a]? = ((stored cap items)[i]?).map Prod.fst

/-- C05, partial: for every outcome of the random source in its range `[0, available)`. Missing: the case in
which the episode count exceeds the available timesteps; see `replay_timesteps_violation`. -/
theorem replay_timesteps_partial {cap : Nat} (hc : 0 < cap) (z : α) (ops : List (Op α)) (hops : ∀ o ∈ ops, CodesOk o)
    (n past future : Nat) (rnd : Nat → Nat) :
    let q := Queue.run cap z ops
    let S := stored cap (Log.run cap ops).items
    (retrievable cap (Log.run cap ops).items).length + past + future ≤ S.length →
    (∀ k, (rnd k : Int) < q.numTimesteps past future) →
    ReplayTimestepsOk q cap (Log.run cap ops).items n past future rnd := by
  have h := runInv hc z ops hops
  have hm := h.ec_max
  have hsl := stored_length cap (Log.run cap ops).items
  intro q S hroom hrnd idx hidx a ha
  have hq : q = Queue.run cap z ops := rfl
  rw [← hq] at hm h
  have hS : S = stored cap (Log.run cap ops).items := rfl
  rw [← hS] at hsl
  have hnum : q.numTimesteps past future = (S.length : Int) - (past + future) := by
    unfold Queue.numTimesteps
    rw [h.cap_eq, h.bi_eq, ← hsl]; omega
  unfold Queue.replayTimesteps at hidx
  simp only at hidx
  split at hidx
  · cases hidx
  · simp only [Except.ok.injEq] at hidx
    rw [← hidx] at ha
    obtain ⟨k, hk, rfl⟩ := List.mem_map.mp ha
    have hr := hrnd k
    rw [hnum] at hr
    have hi : S.length - 1 - rnd k - future < S.length := by omega
    have haddr : (((q.bi : Int) - 1 - (rnd k : Int) - (future : Int)) % (q.cap : Int)).toNat = addr cap (Log.run cap ops).items (S.length - 1 - rnd k - future) := by
      unfold addr
      rw [h.bi_eq, h.cap_eq, ← hS]
      rw [show (((Log.run cap ops).items.length : Int) - 1 - (rnd k : Int) - (future : Int)) =
        (((Log.run cap ops).items.length - S.length + (S.length - 1 - rnd k - future) : Nat) : Int) by omega,
        ← Int.natCast_emod, Int.toNat_natCast]
    refine ⟨S.length - 1 - rnd k - future, by omega, ?_, haddr, ?_⟩
    · show S.length - 1 - rnd k - future + future < S.length
      omega
    · rw [haddr]
      exact h.get _ hi

/-- C05 without horizons: holds for every history and every outcome of the random source. -/
theorem replay_timesteps_no_horizon {cap : Nat} (hc : 0 < cap) (z : α) (ops : List (Op α)) (hops : ∀ o ∈ ops, CodesOk o)
    (n : Nat) (rnd : Nat → Nat) (hrnd : ∀ k, (rnd k : Int) < (Queue.run cap z ops).numTimesteps 0 0) :
    ReplayTimestepsOk (Queue.run cap z ops) cap (Log.run cap ops).items n 0 0 rnd := by
  have h := runInv hc z ops hops
  have h1 := h.ec_max
  have h2 := h.ec_le
  exact replay_timesteps_partial hc z ops hops n 0 0 rnd (by omega) hrnd

/-- Every stored timestep with room for the horizons can be sampled: the random value `r` selects it. -/
theorem replay_timesteps_reaches_all {cap : Nat} (hc : 0 < cap) (z : α) (ops : List (Op α)) (hops : ∀ o ∈ ops, CodesOk o)
    (n past future i : Nat) (hn : 0 < n) :
    let q := Queue.run cap z ops
    let S := stored cap (Log.run cap ops).items
    past ≤ i → i + future < S.length →
    ∃ r : Nat, (r : Int) < q.numTimesteps past future ∧
      ∃ rest, q.replayTimesteps n past future (fun _ => r) = .ok (addr cap (Log.run cap ops).items i :: rest) := by
  have h := runInv hc z ops hops
  have hsl := stored_length cap (Log.run cap ops).items
  intro q S hp hf
  have hq : q = Queue.run cap z ops := rfl
  rw [← hq] at h
  have hS : S = stored cap (Log.run cap ops).items := rfl
  rw [← hS] at hsl
  have hnum : (S.length : Int) - (past + future) ≤ q.numTimesteps past future := by
    unfold Queue.numTimesteps
    rw [h.cap_eq, h.bi_eq, ← hsl]; omega
  refine ⟨S.length - 1 - future - i, by omega, ?_⟩
  unfold Queue.replayTimesteps
  simp only
  rw [if_neg (by omega)]
  obtain ⟨m, hm⟩ : ∃ m, (min (n : Int) (q.numTimesteps past future)).toNat = m + 1 :=
    ⟨(min (n : Int) (q.numTimesteps past future)).toNat - 1, by omega⟩
  rw [hm, List.range_succ_eq_map, List.map_cons]
  refine ⟨List.map (fun (_ : Nat) => (((q.bi : Int) - 1 - ((S.length - 1 - future - i : Nat) : Int) - (future : Int)) %
    (q.cap : Int)).toNat) (List.map Nat.succ (List.range m)), ?_⟩
  congr 2
  unfold addr
  rw [h.bi_eq, h.cap_eq, ← hS]
  rw [show (((Log.run cap ops).items.length : Int) - 1 - ((S.length - 1 - future - i : Nat) : Int) - (future : Int)) =
    (((Log.run cap ops).items.length - S.length + i : Nat) : Int) by omega,
    ← Int.natCast_emod, Int.toNat_natCast]

example : let q := Queue.run 5 0 exOps
    (q.replayTimesteps 3 1 1 (fun k => k)).toOption.bind q.retrieve = some [15, 14, 13] := by decide

/-- C05 fails in general, for the same reason as C03: here only two timesteps are stored, a look-ahead of
one is requested, and the sampled index is a slot never written. -/
theorem replay_timesteps_violation :
    ∃ (cap : Nat) (ops : List (Op Nat)) (n past future : Nat) (rnd : Nat → Nat) (idx : List Nat), 0 < cap ∧
      (∀ o ∈ ops, CodesOk o) ∧ AllAccepted cap ops ∧
      (∀ k, (rnd k : Int) < (Queue.run cap 0 ops).numTimesteps past future) ∧
      (Queue.run cap 0 ops).replayTimesteps n past future rnd = .ok idx ∧
      (Queue.run cap 0 ops).retrieve idx = some [0] ∧
      0 ∉ (Log.run cap ops).items.map Prod.fst := by
  refine ⟨10, [.enqueue [(1, 1)], .enqueue [(2, 1)]], 1, 0, 1, fun _ => 1, [9], by decide, ?_, ?_, ?_, by rfl, by rfl, by decide⟩
  · intro o ho
    simp at ho; rcases ho with rfl | rfl <;> simp [CodesOk]
  · intro xs hx
    simp at hx; rcases hx with rfl | rfl <;> decide
  · intro k; show (1 : Int) < _; decide

/-! ## C06, C07 -/

/-- Histories without rejected batches leave the write head marked. -/
theorem fenced_of_accepted {cap : Nat} (ops : List (Op α)) (h : AllAccepted cap ops) : Fenced (Log.run cap ops) := by
  left
  unfold Log.run
  have h0 : (Log.empty : Log α).marked = true := rfl
  generalize (Log.empty : Log α) = s at h0
  induction ops generalizing s with
  | nil => exact h0
  | cons o ops ih =>
    refine ih (fun xs hx => h xs (List.mem_cons_of_mem _ hx)) _ ?_
    cases o with
    | enqueue xs => simp [Log.step, h xs List.mem_cons_self]
    | reset => simp only [Log.step, h0, if_true]

/-- C06: looking back over `k` timesteps from any stored timesteps `ps` yields, for each of them, exactly
its in-episode predecessors (at most `k`, limited to stored ones) followed by itself; the reported lengths
and start offsets delimit these windows, and the initial values are those of the first entry of each window. -/
theorem lookback_in_episode_partial {cap : Nat} (hc : 0 < cap) (z : α) (ops : List (Op α)) (hops : ∀ o ∈ ops, CodesOk o)
    (hf : Fenced (Log.run cap ops)) (k : Nat) (ps : List Nat) :
    let q := Queue.run cap z ops
    let items := (Log.run cap ops).items
    let S := stored cap items
    (∀ i ∈ ps, i < S.length) →
    ∃ w, q.predecessors (ps.map (addr cap items)) k = some w ∧
      w.lengths = ps.map (fun i => (lookback k S i).length) ∧
      w.starts = cumsumExcl 0 w.lengths ∧
      q.retrieve w.flat = some ((ps.map (lookback k S)).flatten.map Prod.fst) ∧
      q.retrieve w.marks = some ((ps.filterMap (fun i => (lookback k S i).head?)).map Prod.fst) := by
  intro q items S hps
  exact (runInv hc z ops hops).back hf ps hps k

/-- C07: the same for looking ahead; the final values are those of the last entry of each window. -/
theorem lookahead_in_episode_partial {cap : Nat} (hc : 0 < cap) (z : α) (ops : List (Op α)) (hops : ∀ o ∈ ops, CodesOk o)
    (hf : Fenced (Log.run cap ops)) (k : Nat) (ps : List Nat) :
    let q := Queue.run cap z ops
    let items := (Log.run cap ops).items
    let S := stored cap items
    (∀ i ∈ ps, i < S.length) →
    ∃ w, q.successors (ps.map (addr cap items)) k = some w ∧
      w.lengths = ps.map (fun i => (lookahead k S i).length) ∧
      w.starts = cumsumExcl 0 w.lengths ∧
      q.retrieve w.flat = some ((ps.map (lookahead k S)).flatten.map Prod.fst) ∧
      q.retrieve w.marks = some ((ps.filterMap (fun i => (lookahead k S i).getLast?)).map Prod.fst) := by
  intro q items S hps
  exact (runInv hc z ops hops).ahead hf ps hps k

/-- What `lookback` means: position `i` itself preceded by the longest run of at most `k` timesteps, none of
which is an episode end; if the run is shorter than `k` then it is preceded by an episode end or by the
beginning of the log. -/
theorem lookback_spec (l : List (Step α)) (k i : Nat) (hi : i < l.length) :
    ∃ b, b ≤ k ∧ b ≤ i ∧ lookback k l i = (l.drop (i - b)).take (b + 1) ∧
      (∀ j x, i - b ≤ j → j < i → l[j]? = some x → x.2 = 0) ∧
      (b < k → b = i ∨ ∃ x, l[i - b - 1]? = some x ∧ x.2 ≠ 0) := by
  refine ⟨backCount l k i, ?_, backCount_le l k i, lookback_eq l k i hi, ?_, ?_⟩
  · unfold backCount; simp; omega
  · induction k generalizing i with
    | zero => intro j x h1 h2; rw [backCount_zero] at h1; omega
    | succ k ih =>
      cases i with
      | zero => intro j x h1 h2; omega
      | succ i =>
        have hx : l[i]? = some l[i] := List.getElem?_eq_getElem (by omega)
        rw [backCount_succ l k i _ hx]
        intro j x h1 h2 h3
        split at h1
        · rename_i hz
          by_cases hj : j = i
          · subst hj; rw [hx] at h3; cases h3; exact hz
          · exact ih i (by omega) j x (by omega) (by omega) h3
        · omega
  · induction k generalizing i with
    | zero => intro h; omega
    | succ k ih =>
      cases i with
      | zero => intro _; left; rw [backCount_at_zero]
      | succ i =>
        have hx : l[i]? = some l[i] := List.getElem?_eq_getElem (by omega)
        rw [backCount_succ l k i _ hx]
        intro h
        split
        · rename_i hz
          rw [if_pos hz] at h
          rcases ih i (by omega) (by omega) with h1 | ⟨x, h1, h2⟩
          · left; omega
          · right; exact ⟨x, by rw [← h1]; congr 1; omega, h2⟩
        · rename_i hz
          right; exact ⟨l[i], by simpa using hx, hz⟩

/-- What `lookahead` means: a run of at most `k` further timesteps in which only the last one may be an
episode end; if it is shorter than `k` then it stops at an episode end or at the end of the log. -/
theorem lookahead_spec (l : List (Step α)) (k i : Nat) (hi : i < l.length) :
    ∃ b, b ≤ k ∧ i + b < l.length ∧ lookahead k l i = (l.drop i).take (b + 1) ∧
      (∀ j x, i ≤ j → j < i + b → l[j]? = some x → x.2 = 0) ∧
      (b < k → i + b + 1 = l.length ∨ ∃ x, l[i + b]? = some x ∧ x.2 ≠ 0) := by
  suffices ∀ (m : List (Step α)), m ≠ [] → ∃ b, b ≤ k ∧ b < m.length ∧ lookaheadFrom k m = m.take (b + 1) ∧
      (∀ j x, j < b → m[j]? = some x → x.2 = 0) ∧ (b < k → b + 1 = m.length ∨ ∃ x, m[b]? = some x ∧ x.2 ≠ 0) by
    obtain ⟨b, h1, h2, h3, h4, h5⟩ := this (l.drop i) (by
      intro e; have := congrArg List.length e; simp at this; omega)
    rw [List.length_drop] at h2 h5
    refine ⟨b, h1, by omega, h3, ?_, ?_⟩
    · intro j x hj1 hj2 hx
      refine h4 (j - i) x (by omega) ?_
      rw [List.getElem?_drop, show i + (j - i) = j by omega]; exact hx
    · intro hb
      rcases h5 hb with h | ⟨x, hx, hxn⟩
      · clear h5; left; omega
      · right; exact ⟨x, by rw [List.getElem?_drop] at hx; exact hx, hxn⟩
  intro m
  induction k generalizing m with
  | zero =>
    intro hne
    cases m with
    | nil => exact absurd rfl hne
    | cons x r => exact ⟨0, by omega, by simp, by simp [lookaheadFrom], by omega, by omega⟩
  | succ k ih =>
    intro hne
    cases m with
    | nil => exact absurd rfl hne
    | cons x r =>
      by_cases hx : x.2 = 0
      · cases r with
        | nil =>
          refine ⟨0, by omega, by simp, ?_, by omega, by simp⟩
          cases k <;> simp [lookaheadFrom, hx]
        | cons y r =>
          obtain ⟨b, h1, h2, h3, h4, h5⟩ := ih (y :: r) (by simp)
          refine ⟨b + 1, by omega, by simp at h2 ⊢; omega, by rw [lookaheadFrom, if_pos hx, h3]; simp, ?_, ?_⟩
          · intro j w hj hw
            cases j with
            | zero => simp at hw; subst hw; exact hx
            | succ j => exact h4 j w (by omega) (by simpa using hw)
          · intro hb
            rcases h5 (by omega) with h | ⟨w, hw, hwn⟩
            · left; simp at h ⊢; omega
            · right; exact ⟨w, by simpa using hw, hwn⟩
      · exact ⟨0, by omega, by simp, by simp [lookaheadFrom, hx], by omega, fun _ => Or.inr ⟨x, rfl, hx⟩⟩

example : Fenced (Log.run 5 exOps) := fenced_of_accepted exOps (by
  intro xs hx
  simp only [exOps, List.mem_cons, Op.enqueue.injEq, List.not_mem_nil, or_false] at hx
  rcases hx with rfl | rfl | rfl <;> decide)

example : let q := Queue.run 5 0 exOps
    let items := (Log.run 5 exOps).items
    ((q.predecessors ([1, 2, 4].map (addr 5 items)) 3).map (·.lengths) = some [1, 2, 2]) ∧
    ((q.predecessors ([1, 2, 4].map (addr 5 items)) 3).bind (fun w => q.retrieve w.flat) = some [13, 13, 14, 15, 16]) ∧
    ((q.successors ([0, 1, 3].map (addr 5 items)) 3).bind (fun w => q.retrieve w.flat) = some [12, 13, 14, 15, 16]) := by
  decide

/-- C06/C07 need the fence: after a rejected batch the write head is no longer marked, and looking ahead
from the newest timestep of an unfinished episode runs over into the oldest stored ones. -/
theorem lookahead_after_rejection_violation :
    ∃ (cap : Nat) (ops : List (Op Nat)) (w : Windows), 0 < cap ∧ (∀ o ∈ ops, CodesOk o) ∧
      let q := Queue.run cap 0 ops
      let items := (Log.run cap ops).items
      stored cap items = [(2, 0), (3, 0), (4, 0)] ∧
      q.successors [addr cap items 2] 2 = some w ∧ q.retrieve w.flat = some [4, 2, 3] := by
  refine ⟨3, [.enqueue [(1, 0)], .enqueue [(2, 0), (3, 0), (4, 0)], .enqueue [(5, 1), (6, 0)]],
    ⟨[0], [3], [0, 1, 2], [2]⟩, by decide, ?_, by decide, by rfl, by rfl⟩
  intro o ho
  simp at ho; rcases ho with rfl | rfl | rfl <;> simp [CodesOk]

/-- C06, violation: in the same history, looking back from the oldest stored timestep runs backwards over the write head
and returns the newest timesteps as its predecessors. -/
theorem lookback_after_rejection_violation :
    ∃ (cap : Nat) (ops : List (Op Nat)) (w : Windows), 0 < cap ∧ (∀ o ∈ ops, CodesOk o) ∧
      let q := Queue.run cap 0 ops
      let items := (Log.run cap ops).items
      stored cap items = [(2, 0), (3, 0), (4, 0)] ∧
      q.predecessors [addr cap items 0] 2 = some w ∧ q.retrieve w.flat = some [3, 4, 2] := by
  refine ⟨3, [.enqueue [(1, 0)], .enqueue [(2, 0), (3, 0), (4, 0)], .enqueue [(5, 1), (6, 0)]],
    ⟨[0], [3], [2, 0, 1], [2]⟩, by decide, ?_, by decide, by rfl, by rfl⟩
  intro o ho
  simp at ho; rcases ho with rfl | rfl | rfl <;> simp [CodesOk]

/-- C02, C04 and C05, limit: a finished episode as long as the capacity is stored completely, but is never retrieved as an
episode; the episode count is -1 when an unfinished one of that length is stored. -/
theorem full_length_episode_violation :
    (let q := Queue.run 3 0 [.enqueue [(1, 0), (2, 0), (3, 1)]]
     q.vals = [1, 2, 3] ∧ q.ec = 0 ∧ ∃ e, q.recentEpisodes 1 = .error e) ∧
    (Queue.run 3 0 [.enqueue [(1, 0), (2, 0), (3, 0)]]).ec = -1 :=
  ⟨⟨by decide, by decide, _, rfl⟩, by decide⟩

end Verif.Props.Memory
