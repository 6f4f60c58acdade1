import Verif.Memory.Episodes

/-! Look-back and look-ahead loops. -/

namespace Verif.Memory

variable {α : Type}

/-- The stored terminal codes seen by the loops: the code at window position `i` is nonzero exactly if
position `i` is an episode end or the marked last position. -/
structure Marks (q : Queue α) (W : List (Step α)) : Prop where
  capPos : 0 < q.cap
  lenW : W.length = q.cap
  lenT : q.term.length = q.cap
  inner : ∀ i, i + 1 < q.cap → ∃ t, q.term[(q.bi + i) % q.cap]? = some t ∧ (t = 0 ↔ ∀ x, W[i]? = some x → x.2 = 0)
  last : ∃ t, q.term[(q.bi + (q.cap - 1)) % q.cap]? = some t ∧ t ≠ 0

theorem Rep.marks {m : Bool} {q : Queue α} {W : List (Step α)} (h : Rep m q W)
    (hm : m = true ∨ ∀ x, W.getLast? = some x → x.2 ≠ 0) : Marks q W := by
  have hne := h.ne_nil
  have hlast := h.last_term
  refine ⟨h.capPos, h.lenW, h.lenT, ?_, ?_⟩
  · intro i hi
    have hag := h.term
    have hlen : (storedCodes m (W.map Prod.snd)).length = q.cap := by
      cases m <;> simp [storedCodes, markLast_length, h.lenW]
    have hget := hag i (by rw [hlen]; omega)
    have hW : W = W.dropLast ++ [W.getLast hne] := (List.dropLast_concat_getLast hne).symm
    have e : (storedCodes m (W.map Prod.snd))[i]? = (W.map Prod.snd)[i]? := by
      cases m with
      | false => rfl
      | true =>
        conv => lhs; rw [hW]
        conv => rhs; rw [hW]
        have hl := h.lenW
        rw [List.map_append, List.map_cons, List.map_nil]
        simp only [storedCodes, if_true]
        rw [markLast_append _ _ (by simp)]
        rw [List.getElem?_append_left (by simp; omega), List.getElem?_append_left (by simp; omega)]
    rw [e] at hget
    have hi' : i < W.length := by rw [h.lenW]; omega
    refine ⟨W[i].2, by simpa [hi'] using hget, ?_⟩
    simp [hi']
  · rw [← lastIndex_eq h.capPos, hlast]
    refine ⟨_, rfl, ?_⟩
    rcases hm with rfl | hm
    · by_cases hz : (W.getLast hne).2 = 0
      · simp [hz]
      · simp [hz]
    · have := hm _ (List.getLast?_eq_some_getLast hne)
      split
      · simp
      · exact this

theorem boolMask_cons {β : Type} (x : β) (l : List β) (b : Bool) (m : List Bool) :
    boolMask (x :: l) (b :: m) = if b then x :: boolMask l m else boolMask l m := by
  cases b <;> simp [boolMask]

theorem boolMask_append {β : Type} (l l' : List β) (m m' : List Bool) (h : l.length = m.length) :
    boolMask (l ++ l') (m ++ m') = boolMask l m ++ boolMask l' m' := by
  unfold boolMask
  rw [List.zip_append h, List.filter_append, List.map_append]

theorem prev_slot {cap i : Nat} (hc : 0 < cap) (p : Nat) :
    ((((p + (i + 1)) % cap : Nat) : Int) - 1) % (cap : Int) = (((p + i) % cap : Nat) : Int) := by
  rw [Int.natCast_emod, Int.emod_sub_emod]
  rw [show ((p + (i + 1) : Nat) : Int) - 1 = ((p + i : Nat) : Int) by omega, Int.natCast_emod]

theorem prev_slot_zero {cap : Nat} (hc : 0 < cap) (p : Nat) :
    (((p % cap : Nat) : Int) - 1) % (cap : Int) = (((p + (cap - 1)) % cap : Nat) : Int) := by
  rw [Int.natCast_emod, Int.emod_sub_emod]
  rw [Int.natCast_emod, show ((p + (cap - 1) : Nat) : Int) = ((p : Int) - 1) + cap by omega, Int.add_emod_right]

/-- Number of in-episode predecessors of position `i`, at most `k`. -/
def backCount (W : List (Step α)) (k i : Nat) : Nat :=
  (((W.take i).reverse.takeWhile (fun x => x.2 = 0)).take k).length

theorem backCount_zero (W : List (Step α)) (i : Nat) : backCount W 0 i = 0 := by simp [backCount]

theorem backCount_at_zero (W : List (Step α)) (k : Nat) : backCount W k 0 = 0 := by simp [backCount]

theorem backCount_succ (W : List (Step α)) (k i : Nat) (x : Step α) (hx : W[i]? = some x) :
    backCount W (k + 1) (i + 1) = if x.2 = 0 then backCount W k i + 1 else 0 := by
  unfold backCount
  rw [List.take_add_one (l := W), hx]
  simp only [Option.toList, List.reverse_append, List.reverse_singleton, List.singleton_append, List.takeWhile_cons]
  by_cases h : x.2 = 0
  · simp [h]
  · simp [h]

theorem backCount_le (W : List (Step α)) (k i : Nat) : backCount W k i ≤ i := by
  unfold backCount
  have h1 := List.Sublist.length_le (List.takeWhile_sublist (fun x : Step α => decide (x.2 = 0)) (l := (W.take i).reverse))
  simp at h1 ⊢
  omega

theorem pred_false {q : Queue α} (hc : 0 < q.cap) (hl : q.term.length = q.cap) (k : Nat) :
    ∀ (n i : Nat) (ix : List Nat) (mk : List Bool), ix.length = mk.length →
    ∃ r', iterBody q.predBody k { len := n, idx := i :: ix, mask := false :: mk } = some r' ∧
      r'.idx.length = r'.mask.length ∧ r'.len = n ∧
      boolMask r'.idx r'.mask = boolMask ix mk := by
  induction k with
  | zero => intro n i ix mk h3; exact ⟨_, rfl, by simp [h3], rfl, by simp [boolMask_cons]⟩
  | succ k ih =>
    intro n i ix mk h3
    have hlt : (((i : Int) - 1) % (q.cap : Int)).toNat < q.term.length := by
      have := Int.emod_lt_of_pos ((i : Int) - 1) (show (0 : Int) < q.cap by omega)
      have := Int.emod_nonneg ((i : Int) - 1) (show (q.cap : Int) ≠ 0 by omega)
      omega
    simp only [iterBody, Queue.predBody, List.head?_cons, List.getElem?_eq_getElem hlt,
      Bool.and_false, Option.bind_some]
    obtain ⟨r', e1, e2, e3, e4⟩ := ih (n + if false = true then 1 else 0)
      (((i : Int) - 1) % (q.cap : Int)).toNat (i :: ix) (false :: mk) (by simp [h3])
    exact ⟨r', e1, e2, by simpa using e3, by rw [e4, boolMask_cons]; simp⟩

theorem pred_loop {q : Queue α} {W : List (Step α)} (h : Marks q W) (k : Nat) :
    ∀ (i n : Nat) (ix : List Nat) (mk : List Bool), i < q.cap → ix.length = mk.length →
    ∃ r', iterBody q.predBody k { len := n, idx := (q.bi + i) % q.cap :: ix, mask := true :: mk } = some r' ∧
      r'.idx.length = r'.mask.length ∧ r'.len = n + backCount W k i ∧
      boolMask r'.idx r'.mask =
        slots q.cap (q.bi + i - backCount W k i) (backCount W k i) ++ (q.bi + i) % q.cap :: boolMask ix mk := by
  induction k with
  | zero =>
    intro i n ix mk hi h3
    exact ⟨_, rfl, by simp [h3], by simp [backCount_zero], by simp [backCount_zero, slots_zero, boolMask_cons]⟩
  | succ k ih =>
    intro i n ix mk hi h3
    have hc := h.capPos
    cases i with
    | zero =>
      obtain ⟨t, ht, htn⟩ := h.last
      have e : ((((((q.bi + 0) % q.cap : Nat) : Int)) - 1) % (q.cap : Int)).toNat = (q.bi + (q.cap - 1)) % q.cap := by
        rw [Nat.add_zero, prev_slot_zero hc, Int.toNat_natCast]
      simp only [iterBody, Queue.predBody, List.head?_cons, e, ht, Bool.and_true, Option.bind_some]
      have hok : (!decide (0 < t)) = false := by simp; omega
      simp only [hok]
      obtain ⟨r', e1, e2, e3, e4⟩ := pred_false hc h.lenT k (n + if false = true then 1 else 0)
        ((q.bi + (q.cap - 1)) % q.cap) ((q.bi + 0) % q.cap :: ix) (true :: mk) (by simp [h3])
      refine ⟨r', e1, e2, by rw [e3, backCount_at_zero]; simp, ?_⟩
      rw [e4, backCount_at_zero, slots_zero, boolMask_cons]; simp
    | succ i =>
      obtain ⟨t, ht, hti⟩ := h.inner i hi
      have hiW : i < W.length := by rw [h.lenW]; omega
      have hx : W[i]? = some W[i] := List.getElem?_eq_getElem hiW
      have e : ((((((q.bi + (i + 1)) % q.cap : Nat) : Int)) - 1) % (q.cap : Int)).toNat = (q.bi + i) % q.cap := by
        rw [prev_slot hc, Int.toNat_natCast]
      simp only [iterBody, Queue.predBody, List.head?_cons, e, ht, Bool.and_true, Option.bind_some]
      rw [backCount_succ W k i _ hx]
      by_cases hz : (W[i]).2 = 0
      · have ht0 : t = 0 := hti.mpr (by simp [hx, hz])
        have hok : (!decide (0 < t)) = true := by simp [ht0]
        simp only [hok, hz, if_true]
        obtain ⟨r', e1, e2, e3, e4⟩ := ih i (n + 1) ((q.bi + (i + 1)) % q.cap :: ix) (true :: mk) (by omega)
          (by simp [h3])
        refine ⟨r', e1, e2, by rw [e3]; omega, ?_⟩
        rw [e4, boolMask_cons, if_pos rfl]
        have hle := backCount_le W k i
        rw [show q.bi + (i + 1) - (backCount W k i + 1) = q.bi + i - backCount W k i by omega,
          slots_append, List.append_assoc]
        congr 1
        rw [show q.bi + i - backCount W k i + backCount W k i = q.bi + i by omega, slots_succ, slots_zero,
          List.singleton_append]
      · have ht0 : t ≠ 0 := fun h0 => hz (hti.mp h0 _ hx)
        have hok : (!decide (0 < t)) = false := by simp; omega
        simp only [hok, hz, if_false]
        obtain ⟨r', e1, e2, e3, e4⟩ := pred_false hc h.lenT k (n + if false = true then 1 else 0)
          ((q.bi + i) % q.cap) ((q.bi + (i + 1)) % q.cap :: ix) (true :: mk) (by simp [h3])
        refine ⟨r', e1, e2, by rw [e3]; simp, ?_⟩
        rw [e4, slots_zero, boolMask_cons]; simp

theorem lookback_eq (W : List (Step α)) (k i : Nat) (hi : i < W.length) :
    lookback k W i = (W.drop (i - backCount W k i)).take (backCount W k i + 1) := by
  have hb : ((W.take i).reverse.takeWhile (fun x => decide (x.2 = 0))).take k
      = (W.take i).reverse.take (backCount W k i) := by
    have hpre : (((W.take i).reverse.takeWhile (fun x => decide (x.2 = 0))).take k) <+: (W.take i).reverse :=
      (List.take_prefix _ _).trans (List.takeWhile_prefix _)
    have := List.prefix_iff_eq_take.mp hpre
    exact this
  have hle := backCount_le W k i
  unfold lookback
  rw [hb, List.reverse_take, List.reverse_reverse]
  rw [List.length_reverse, List.length_take, Nat.min_eq_left (by omega), List.take_add, List.drop_drop,
    List.drop_take]
  congr 2
  · omega
  · congr 1; omega

theorem lookback_length (W : List (Step α)) (k i : Nat) (hi : i < W.length) :
    (lookback k W i).length = backCount W k i + 1 := by
  have hle := backCount_le W k i
  rw [lookback_eq W k i hi]
  simp; omega

/-- Number of in-episode successors of the head, at most `k`. -/
def fwdCount (k : Nat) (l : List (Step α)) : Nat := (lookaheadFrom k l).length - 1

theorem lookaheadFrom_prefix (k : Nat) (l : List (Step α)) : lookaheadFrom k l <+: l := by
  induction k generalizing l with
  | zero => cases l <;> simp [lookaheadFrom]
  | succ k ih =>
    cases l with
    | nil => simp [lookaheadFrom]
    | cons x r =>
      simp only [lookaheadFrom]
      split
      · exact (List.cons_prefix_cons).mpr ⟨rfl, ih r⟩
      · exact (List.cons_prefix_cons).mpr ⟨rfl, List.nil_prefix⟩

theorem lookaheadFrom_ne_nil (k : Nat) (x : Step α) (r : List (Step α)) : 0 < (lookaheadFrom k (x :: r)).length := by
  cases k with
  | zero => simp [lookaheadFrom]
  | succ k => simp only [lookaheadFrom]; split <;> simp

theorem fwdCount_zero (l : List (Step α)) : fwdCount 0 l = 0 := by cases l <;> simp [fwdCount, lookaheadFrom]

theorem fwdCount_single (k : Nat) (x : Step α) : fwdCount k [x] = 0 := by
  cases k with
  | zero => simp [fwdCount, lookaheadFrom]
  | succ k => cases k <;> simp [fwdCount, lookaheadFrom] <;> split <;> simp

theorem fwdCount_succ (k : Nat) (x y : Step α) (r : List (Step α)) :
    fwdCount (k + 1) (x :: y :: r) = if x.2 = 0 then fwdCount k (y :: r) + 1 else 0 := by
  have := lookaheadFrom_ne_nil k y r
  by_cases h : x.2 = 0
  · simp only [fwdCount, lookaheadFrom, h, if_true, List.length_cons]
    omega
  · simp [fwdCount, lookaheadFrom, h]

theorem succ_false {q : Queue α} (hc : 0 < q.cap) (hl : q.term.length = q.cap) (k : Nat) :
    ∀ (n i : Nat) (ix : List Nat) (mk : List Bool), i < q.cap → ix.length = mk.length →
    ∃ r', iterBody q.succBody k { len := n, idx := ix ++ [i], mask := mk ++ [false] } = some r' ∧
      r'.idx.length = r'.mask.length ∧ r'.len = n ∧
      boolMask r'.idx r'.mask = boolMask ix mk := by
  induction k with
  | zero =>
    intro n i ix mk _ h3
    exact ⟨_, rfl, by simp [h3], rfl, by rw [boolMask_append _ _ _ _ h3]; simp [boolMask]⟩
  | succ k ih =>
    intro n i ix mk hi h3
    have hlt : i < q.term.length := by omega
    simp only [iterBody, Queue.succBody, List.getLast?_append, List.getLast?_singleton, Option.some_or,
      List.getElem?_eq_getElem hlt, Bool.and_false, Option.bind_some]
    obtain ⟨r', e1, e2, e3, e4⟩ := ih (n + if false = true then 1 else 0) ((i + 1) % q.cap) (ix ++ [i]) (mk ++ [false])
      (Nat.mod_lt _ hc) (by simp [h3])
    refine ⟨r', e1, e2, by simpa using e3, ?_⟩
    rw [e4, boolMask_append _ _ _ _ h3]; simp [boolMask]

theorem succ_loop {q : Queue α} {W : List (Step α)} (h : Marks q W) (k : Nat) :
    ∀ (i n : Nat) (ix : List Nat) (mk : List Bool), i < q.cap → ix.length = mk.length →
    ∃ r', iterBody q.succBody k { len := n, idx := ix ++ [(q.bi + i) % q.cap], mask := mk ++ [true] } = some r' ∧
      r'.idx.length = r'.mask.length ∧ r'.len = n + fwdCount k (W.drop i) ∧
      boolMask r'.idx r'.mask =
        boolMask ix mk ++ slots q.cap (q.bi + i) (fwdCount k (W.drop i) + 1) := by
  have h0 : ∀ (a : Nat) (ix : List Nat) (mk : List Bool), ix.length = mk.length →
      boolMask (ix ++ [a]) (mk ++ [true]) = boolMask ix mk ++ [a] := by
    intro a ix mk h3
    rw [boolMask_append _ _ _ _ h3]; simp [boolMask]
  induction k with
  | zero =>
    intro i n ix mk hi h3
    exact ⟨_, rfl, by simp [h3], by simp [fwdCount_zero], by
      simp [fwdCount_zero, slots_succ, slots_zero, h0 _ _ _ h3]⟩
  | succ k ih =>
    intro i n ix mk hi h3
    have hc := h.capPos
    have hiW : i < W.length := by rw [h.lenW]; omega
    have hstep : ∀ t, q.term[(q.bi + i) % q.cap]? = some t →
        iterBody q.succBody (k + 1) { len := n, idx := ix ++ [(q.bi + i) % q.cap], mask := mk ++ [true] } =
          iterBody q.succBody k
          { len := n + (if !decide (0 < t) then 1 else 0)
            idx := ix ++ [(q.bi + i) % q.cap] ++ [((q.bi + i) % q.cap + 1) % q.cap]
            mask := mk ++ [true] ++ [!decide (0 < t)] } := by
      intro t ht
      simp only [iterBody, Queue.succBody, List.getLast?_append, List.getLast?_singleton, Option.some_or,
        ht, Bool.and_true, Option.bind_some]
    have hslot : ((q.bi + i) % q.cap + 1) % q.cap = (q.bi + (i + 1)) % q.cap := by
      rw [Nat.mod_add_mod, Nat.add_assoc]
    by_cases hl : i + 1 < q.cap
    · obtain ⟨t, ht, hti⟩ := h.inner i hl
      have hx : W[i]? = some W[i] := List.getElem?_eq_getElem hiW
      have hdrop : W.drop i = W[i] :: W.drop (i + 1) := List.drop_eq_getElem_cons hiW
      have hi2 : i + 1 < W.length := by rw [h.lenW]; omega
      have hdrop2 : W.drop (i + 1) = W[i + 1] :: W.drop (i + 1 + 1) := List.drop_eq_getElem_cons hi2
      have hcnt : fwdCount (k + 1) (W.drop i) = if (W[i]).2 = 0 then fwdCount k (W.drop (i + 1)) + 1 else 0 := by
        rw [hdrop, hdrop2, fwdCount_succ]
      rw [hstep t ht, hcnt, hslot]
      by_cases hz : (W[i]).2 = 0
      · have ht0 : t = 0 := hti.mpr (by simp [hx, hz])
        have hok : (!decide (0 < t)) = true := by simp [ht0]
        simp only [hok, hz, if_true]
        obtain ⟨r', e1, e2, e3, e4⟩ := ih (i + 1) (n + 1) (ix ++ [(q.bi + i) % q.cap]) (mk ++ [true]) hl (by simp [h3])
        refine ⟨r', e1, e2, by rw [e3]; omega, ?_⟩
        rw [e4, h0 _ _ _ h3, slots_succ _ _ (_ + 1), List.append_assoc, List.singleton_append, Nat.add_assoc]
      · have ht0 : t ≠ 0 := fun h0 => hz (hti.mp h0 _ hx)
        have hok : (!decide (0 < t)) = false := by simp; omega
        simp only [hok, hz, if_false]
        obtain ⟨r', e1, e2, e3, e4⟩ := succ_false hc h.lenT k (n + if false = true then 1 else 0)
          ((q.bi + (i + 1)) % q.cap) (ix ++ [(q.bi + i) % q.cap]) (mk ++ [true]) (Nat.mod_lt _ hc) (by simp [h3])
        refine ⟨r', e1, e2, by rw [e3]; simp, ?_⟩
        rw [e4, h0 _ _ _ h3, slots_succ, slots_zero]
    · have hlast : i = q.cap - 1 := by omega
      obtain ⟨t, ht, htn⟩ := h.last
      rw [← hlast] at ht
      have hcnt : fwdCount (k + 1) (W.drop i) = 0 := by
        rw [List.drop_eq_getElem_cons hiW, List.drop_eq_nil_of_le (by rw [h.lenW]; omega), fwdCount_single]
      have hok : (!decide (0 < t)) = false := by simp; omega
      rw [hstep t ht, hcnt, hslot]
      simp only [hok]
      obtain ⟨r', e1, e2, e3, e4⟩ := succ_false hc h.lenT k (n + if false = true then 1 else 0)
        ((q.bi + (i + 1)) % q.cap) (ix ++ [(q.bi + i) % q.cap]) (mk ++ [true]) (Nat.mod_lt _ hc) (by simp [h3])
      refine ⟨r', e1, e2, by rw [e3]; simp, ?_⟩
      rw [e4, h0 _ _ _ h3, slots_succ, slots_zero]

theorem lookahead_eq (W : List (Step α)) (k i : Nat) (hi : i < W.length) :
    lookahead k W i = (W.drop i).take (fwdCount k (W.drop i) + 1) := by
  unfold lookahead
  have h := List.prefix_iff_eq_take.mp (lookaheadFrom_prefix k (W.drop i))
  have hpos : 0 < (lookaheadFrom k (W.drop i)).length := by
    rw [List.drop_eq_getElem_cons hi]; exact lookaheadFrom_ne_nil _ _ _
  rw [show fwdCount k (W.drop i) + 1 = (lookaheadFrom k (W.drop i)).length by unfold fwdCount; omega]
  exact h

theorem lookahead_length (W : List (Step α)) (k i : Nat) (hi : i < W.length) :
    (lookahead k W i).length = fwdCount k (W.drop i) + 1 := by
  have hpos : 0 < (lookaheadFrom k (W.drop i)).length := by
    rw [List.drop_eq_getElem_cons hi]; exact lookaheadFrom_ne_nil _ _ _
  unfold lookahead fwdCount; omega

theorem boolMask_flatten (rows : List Row) (h : ∀ r ∈ rows, r.idx.length = r.mask.length) :
    boolMask (rows.map Row.idx).flatten (rows.map Row.mask).flatten =
      (rows.map (fun r => boolMask r.idx r.mask)).flatten := by
  induction rows with
  | nil => rfl
  | cons r rows ih =>
    simp only [List.map_cons, List.flatten_cons]
    rw [boolMask_append _ _ _ _ (h r List.mem_cons_self), ih (fun r' hr => h r' (List.mem_cons_of_mem _ hr))]

/-- Relating rows to blocks of slots. -/
theorem rows_mapM {β : Type} (f : Nat → Option Row) (idx : β → Nat) (blk : β → List Nat) (ps : List β)
    (h : ∀ p ∈ ps, ∃ r, f (idx p) = some r ∧ r.idx.length = r.mask.length ∧ r.len = (blk p).length ∧
      boolMask r.idx r.mask = blk p) :
    ∃ rows, (ps.map idx).mapM f = some rows ∧ rows.map Row.len = ps.map (fun p => (blk p).length) ∧
      boolMask (rows.map Row.idx).flatten (rows.map Row.mask).flatten = (ps.map blk).flatten := by
  suffices ∃ rows, (ps.map idx).mapM f = some rows ∧ rows.map Row.len = ps.map (fun p => (blk p).length) ∧
      (∀ r ∈ rows, r.idx.length = r.mask.length) ∧
      rows.map (fun r => boolMask r.idx r.mask) = ps.map blk by
    obtain ⟨rows, h1, h2, h3, h4⟩ := this
    exact ⟨rows, h1, h2, by rw [boolMask_flatten rows h3, h4]⟩
  induction ps with
  | nil => exact ⟨[], rfl, rfl, by simp, rfl⟩
  | cons p ps ih =>
    obtain ⟨r, r1, r2, r3, r4⟩ := h p List.mem_cons_self
    obtain ⟨rows, h1, h2, h3, h4⟩ := ih (fun p' hp => h p' (List.mem_cons_of_mem _ hp))
    refine ⟨r :: rows, ?_, by simp [r3, h2], ?_, by simp [r4, h4]⟩
    · rw [List.map_cons, List.mapM_cons, r1, h1]; rfl
    · intro r' hr'
      rcases List.mem_cons.mp hr' with rfl | hr'
      · exact r2
      · exact h3 r' hr'

theorem gather_append {β : Type} (buf : List β) (a b : List Nat) (x y : List β)
    (h1 : gather buf a = some x) (h2 : gather buf b = some y) : gather buf (a ++ b) = some (x ++ y) := by
  induction a generalizing x with
  | nil => simp [gather_nil] at h1; subst h1; simpa using h2
  | cons i a ih =>
    rw [gather_cons] at h1
    rw [List.cons_append, gather_cons]
    cases hi : buf[i]? with
    | none => simp [hi] at h1
    | some v =>
      cases hg : gather buf a with
      | none => simp [hi, hg] at h1
      | some w =>
        simp [hi, hg] at h1
        subst h1
        simp [ih w hg]

theorem gather_flatten {β γ : Type} (buf : List β) (blk : γ → List Nat) (val : γ → List β) (ps : List γ)
    (h : ∀ p ∈ ps, gather buf (blk p) = some (val p)) :
    gather buf (ps.map blk).flatten = some (ps.map val).flatten := by
  induction ps with
  | nil => rfl
  | cons p ps ih =>
    simp only [List.map_cons, List.flatten_cons]
    exact gather_append _ _ _ _ _ (h p List.mem_cons_self) (ih (fun p' hp => h p' (List.mem_cons_of_mem _ hp)))

theorem cumsumExcl_length (a : Nat) (l : List Nat) : (cumsumExcl a l).length = l.length := by
  induction l generalizing a with
  | nil => rfl
  | cons x r ih => simp [cumsumExcl, ih]

theorem gather_map_mem {β : Type} (buf : List β) (idx : List Nat) (vals : List β)
    (h : idx.length = vals.length) (hg : ∀ i, i < idx.length → ∀ k, idx[i]? = some k → buf[k]? = vals[i]?) :
    gather buf idx = some vals := by
  induction idx generalizing vals with
  | nil => cases vals <;> simp_all [gather_nil]
  | cons i idx ih =>
    cases vals with
    | nil => simp at h
    | cons v vals =>
      have h0 := hg 0 (by simp) i rfl
      have := ih vals (by simpa using h) (fun j hj k hk => by
        simpa using hg (j + 1) (by simpa using hj) k (by simpa using hk))
      rw [gather_cons, this]
      simp at h0
      simp [h0]

/-- Reading the first entry of every block. -/
theorem gather_starts {γ : Type} (blk : γ → List Nat) (fst : γ → Nat) (ps : List γ) (pre : List Nat)
    (h : ∀ p ∈ ps, ∃ t, blk p = fst p :: t) :
    gather (pre ++ (ps.map blk).flatten) (cumsumExcl pre.length (ps.map (fun p => (blk p).length))) =
      some (ps.map fst) := by
  induction ps generalizing pre with
  | nil => rfl
  | cons p ps ih =>
    obtain ⟨t, ht⟩ := h p List.mem_cons_self
    simp only [List.map_cons, cumsumExcl, List.flatten_cons]
    rw [gather_cons, ← List.append_assoc]
    have := ih (pre ++ blk p) (fun p' hp => h p' (List.mem_cons_of_mem _ hp))
    rw [List.length_append] at this
    rw [this, List.append_assoc, List.getElem?_append_right (Nat.le_refl _)]
    simp [ht]

/-- Reading the last entry of every block. -/
theorem gather_ends {γ : Type} (blk : γ → List Nat) (lst : γ → Nat) (ps : List γ) (pre : List Nat)
    (h : ∀ p ∈ ps, ∃ t, blk p = t ++ [lst p]) :
    gather (pre ++ (ps.map blk).flatten)
      ((cumsumExcl pre.length (ps.map (fun p => (blk p).length))).zipWith (fun s l => s + l - 1)
        (ps.map (fun p => (blk p).length))) = some (ps.map lst) := by
  induction ps generalizing pre with
  | nil => rfl
  | cons p ps ih =>
    obtain ⟨t, ht⟩ := h p List.mem_cons_self
    simp only [List.map_cons, cumsumExcl, List.flatten_cons, List.zipWith_cons_cons]
    rw [gather_cons, ← List.append_assoc]
    have := ih (pre ++ blk p) (fun p' hp => h p' (List.mem_cons_of_mem _ hp))
    rw [List.length_append] at this
    rw [this, List.append_assoc, List.getElem?_append_right (by simp [ht])]
    have hl : pre.length + (blk p).length - 1 - pre.length = t.length := by simp [ht]
    rw [hl, ht]
    simp

/-- `predecessors` at window positions. -/
theorem Rep.predecessors {q : Queue α} {W : List (Step α)} (h : Marks q W)
    (ps : List Nat) (hps : ∀ i ∈ ps, i < q.cap) (k : Nat) :
    q.predecessors (ps.map (fun i => (q.bi + i) % q.cap)) k = some
      { starts := cumsumExcl 0 (ps.map (fun i => (lookback k W i).length))
        lengths := ps.map (fun i => (lookback k W i).length)
        flat := (ps.map (fun i => slots q.cap (q.bi + (i - backCount W k i)) (backCount W k i + 1))).flatten
        marks := ps.map (fun i => (q.bi + (i - backCount W k i)) % q.cap) } := by
  obtain ⟨rows, h1, h2, h3⟩ := rows_mapM (fun i => iterBody q.predBody k (Row.start q.cap i))
    (fun i => (q.bi + i) % q.cap)
    (fun i => slots q.cap (q.bi + (i - backCount W k i)) (backCount W k i + 1)) ps (by
      intro i hi
      obtain ⟨r, e1, e2, e3, e4⟩ := pred_loop h k i 1 [] [] (hps i hi) rfl
      refine ⟨r, by simpa [Row.start] using e1, e2, ?_, ?_⟩
      · rw [e3, slots_length]; omega
      · rw [e4]
        have hle := backCount_le W k i
        rw [slots_append, show q.bi + i - backCount W k i = q.bi + (i - backCount W k i) by omega,
          show q.bi + (i - backCount W k i) + backCount W k i = q.bi + i by omega, slots_succ, slots_zero]
        simp [boolMask])
  have hlen : ps.map (fun i => (lookback k W i).length) =
      ps.map (fun p => (slots q.cap (q.bi + (p - backCount W k p)) (backCount W k p + 1)).length) := by
    apply List.map_congr_left
    intro i hi
    rw [lookback_length W k i (by rw [h.lenW]; exact hps i hi), slots_length]
  unfold Queue.predecessors
  rw [h1]
  simp only
  rw [h2, h3, hlen]
  have hg := gather_starts (fun i => slots q.cap (q.bi + (i - backCount W k i)) (backCount W k i + 1))
    (fun i => (q.bi + (i - backCount W k i)) % q.cap) ps [] (by
      intro p _; exact ⟨_, slots_succ _ _ _⟩)
  rw [List.nil_append] at hg
  simp only [List.length_nil] at hg
  rw [hg]

/-- `successors` at window positions. -/
theorem Rep.successors {q : Queue α} {W : List (Step α)} (h : Marks q W)
    (ps : List Nat) (hps : ∀ i ∈ ps, i < q.cap) (k : Nat) :
    q.successors (ps.map (fun i => (q.bi + i) % q.cap)) k = some
      { starts := cumsumExcl 0 (ps.map (fun i => (lookahead k W i).length))
        lengths := ps.map (fun i => (lookahead k W i).length)
        flat := (ps.map (fun i => slots q.cap (q.bi + i) (fwdCount k (W.drop i) + 1))).flatten
        marks := ps.map (fun i => (q.bi + (i + fwdCount k (W.drop i))) % q.cap) } := by
  obtain ⟨rows, h1, h2, h3⟩ := rows_mapM (fun i => iterBody q.succBody k (Row.start q.cap i))
    (fun i => (q.bi + i) % q.cap)
    (fun i => slots q.cap (q.bi + i) (fwdCount k (W.drop i) + 1)) ps (by
      intro i hi
      obtain ⟨r, e1, e2, e3, e4⟩ := succ_loop h k i 1 [] [] (hps i hi) rfl
      refine ⟨r, by simpa [Row.start] using e1, e2, ?_, ?_⟩
      · rw [e3, slots_length]; omega
      · rw [e4]; simp [boolMask])
  have hlen : ps.map (fun i => (lookahead k W i).length) =
      ps.map (fun p => (slots q.cap (q.bi + p) (fwdCount k (W.drop p) + 1)).length) := by
    apply List.map_congr_left
    intro i hi
    rw [lookahead_length W k i (by rw [h.lenW]; exact hps i hi), slots_length]
  unfold Queue.successors
  rw [h1]
  simp only
  rw [h2, h3, hlen]
  have hg := gather_ends (fun i => slots q.cap (q.bi + i) (fwdCount k (W.drop i) + 1))
    (fun i => (q.bi + (i + fwdCount k (W.drop i))) % q.cap) ps [] (by
      intro p _
      exact ⟨slots q.cap (q.bi + p) (fwdCount k (W.drop p)), by
        rw [slots_append, slots_succ, slots_zero, Nat.add_assoc]⟩)
  rw [List.nil_append] at hg
  simp only [List.length_nil] at hg
  rw [hg]

end Verif.Memory
