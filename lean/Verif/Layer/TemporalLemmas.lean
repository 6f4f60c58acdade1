import Verif.Layer.TemporalSpec

/-! # Lemmas about the temporal layer loop -/

namespace Verif.Layer

section
variable {X S O : Type}

theorem each_ok {α β : Type} {f : α → Except TError β} {g : α → β} {l : List α} (h : ∀ a ∈ l, f a = .ok (g a)) : each f l = .ok (l.map g) := by
  induction l with
  | nil => rfl
  | cons a l ih => rw [each, h a (by simp)]; dsimp only; rw [ih fun b hb => h b (by simp [hb])]; rfl

/-- If every entry goes through the states `g i 0`, `g i 1`, …, so does the batch. -/
theorem loop_ok {ι α : Type} {step : α → Except TError α} {g : ι → Nat → α} {l : List ι} (h : ∀ i ∈ l, ∀ k, step (g i k) = .ok (g i (k + 1))) (n k : Nat) :
    loop step n (l.map (g · k)) = .ok (l.map (g · (k + n))) := by
  induction n generalizing k with
  | zero => rfl
  | succ n ih =>
    rw [loop, show each step (l.map (g · k)) = .ok (l.map (g · (k + 1))) from ?_]
    · dsimp only
      rw [ih, show k + 1 + n = k + (n + 1) by omega]
    · clear ih
      induction l with
      | nil => rfl
      | cons i l ih => rw [List.map_cons, each, h i (by simp)]; dsimp only; rw [ih fun j hj => h j (by simp [hj])]; rfl

theorem finalState_append (cell : Cell X S O) (s : S) (l : List X) (x : X) : finalState cell s (l ++ [x]) = (cell x (finalState cell s l)).2 := by
  induction l generalizing s with
  | nil => rfl
  | cons y l ih => exact ih _

theorem finalOutput_append (cell : Cell X S O) (s : S) (l : List X) (x : X) : finalOutput cell s (l ++ [x]) = some (cell x (finalState cell s l)).1 := by
  induction l generalizing s with
  | nil => rfl
  | cons y l ih =>
    have := ih (cell y s).2
    cases l with
    | nil => exact this
    | cons z l => exact this

/-- The inputs seen after `k` iterations, starting at `a` with `t` valid inputs: the last valid one is repeated. -/
def seen (xs : List X) (a t k : Nat) : List X := ((xs.drop a).take t).take k

theorem seen_succ {xs : List X} {a t k : Nat} (hk : k < t) (ha : a + t ≤ xs.length) : seen xs a t (k + 1) = seen xs a t k ++ [xs[a + k]'(by omega)] := by
  unfold seen
  rw [List.take_succ_eq_append_getElem (by simp only [List.length_take, List.length_drop]; omega)]
  simp

theorem seen_all {xs : List X} {a t k : Nat} (hk : t ≤ k) : seen xs a t k = (xs.drop a).take t := by
  unfold seen
  rw [List.take_take, Nat.min_eq_right hk]

/-- The loop variables after `k` iterations. -/
def rowAt (cell : Cell X S O) (zero : O) (xs : List X) (a t : Nat) (s : S) (k : Nat) : Row S O where
  idx := a + min k (t - 1)
  remaining := t - k
  state := finalState cell s (seen xs a t k)
  out := if k ≤ t then (finalOutput cell s (seen xs a t k)).getD zero
    else match xs[a + (t - 1)]? with
      | none => zero
      | some x => (cell x (finalState cell s (seen xs a t k))).1

theorem body_rowAt (cell : Cell X S O) (zero : O) {xs : List X} {a t : Nat} (ht : 0 < t) (ha : a + t ≤ xs.length) (s : S) (k : Nat) :
    body cell xs (rowAt cell zero xs a t s k) = .ok (rowAt cell zero xs a t s (k + 1)) := by
  unfold body
  have hx : a + min k (t - 1) < xs.length := by omega
  rw [show xs[(rowAt cell zero xs a t s k).idx]? = some xs[a + min k (t - 1)] from List.getElem?_eq_getElem hx]
  dsimp only
  by_cases hk : k < t
  · have e : seen xs a t (k + 1) = seen xs a t k ++ [xs[a + min k (t - 1)]] := by
      rw [seen_succ hk ha]; simp only [Nat.min_eq_left (show k ≤ t - 1 by omega)]
    unfold rowAt
    dsimp only
    rw [if_neg (show ¬ t - k = 0 by omega), if_neg (show ¬ t - k = 0 by omega), e, finalState_append, finalOutput_append, if_pos (show k + 1 ≤ t by omega)]
    refine congrArg Except.ok ?_
    rw [Row.mk.injEq]
    refine ⟨?_, by omega, rfl, rfl⟩
    split <;> omega
  · have e : seen xs a t (k + 1) = seen xs a t k := by rw [seen_all (by omega), seen_all (by omega)]
    unfold rowAt
    dsimp only
    rw [if_pos (show t - k = 0 by omega), if_pos (show t - k = 0 by omega), e, if_neg (show ¬ k + 1 ≤ t by omega),
      List.getElem?_eq_getElem (show a + (t - 1) < xs.length by omega)]
    refine congrArg Except.ok ?_
    rw [Row.mk.injEq]
    refine ⟨?_, by omega, ?_, rfl⟩
    · split <;> omega
    · simp only [Nat.min_eq_right (show t - 1 ≤ k by omega)]

theorem trim_len (h : Nat) (w : Window) : (trim h w).len = min (h + 1) w.len := by
  unfold trim; dsimp only; omega

theorem trim_end (h : Nat) (w : Window) : (trim h w).start + (trim h w).len = w.start + w.len := by
  unfold trim; dsimp only; omega

theorem needed_eq (h : Nat) (xs : List X) (w : Window) : needed h xs w = (xs.drop (trim h w).start).take (trim h w).len := by
  rw [needed, inputs, List.drop_take, List.drop_drop, trim_len]
  unfold trim; dsimp only
  rw [show w.len - min (h + 1) w.len = w.len - (h + 1) by omega, show w.len - (w.len - (h + 1)) = min (h + 1) w.len by omega]

theorem needed_length {h : Nat} {xs : List X} {w : Window} (hw : w.start + w.len ≤ xs.length) : (needed h xs w).length = min (h + 1) w.len := by
  rw [needed_eq, List.length_take, List.length_drop, trim_len]
  have := trim_end h w
  rw [trim_len] at this
  omega

theorem needed_snoc {h : Nat} {xs : List X} {w : Window} (h1 : 0 < w.len) (h2 : w.start + w.len ≤ xs.length) : ∃ l x, needed h xs w = l ++ [x] := by
  rcases List.eq_nil_or_concat (needed h xs w) with e | ⟨l, x, e⟩
  · have := needed_length (h := h) h2
    rw [e, List.length_nil] at this
    omega
  · exact ⟨l, x, by rw [e, List.concat_eq_append]⟩

theorem needed_last {h : Nat} {xs : List X} {w : Window} (h1 : 0 < w.len) (h2 : w.start + w.len ≤ xs.length) :
    (needed h xs w).getLast? = xs[(trim h w).start + ((trim h w).len - 1)]? := by
  have h3 := trim_len h w
  rw [List.getLast?_eq_getElem?, needed_length h2, needed_eq, List.getElem?_take, if_pos (by omega), List.getElem?_drop, h3]

theorem maxLen_le {ws : List Window} {w : Window} (h : w ∈ ws) : w.len ≤ maxLen ws := by
  induction ws with
  | nil => cases h
  | cons v ws ih =>
    rw [maxLen]
    rcases List.mem_cons.mp h with rfl | h
    · omega
    · have := ih h; omega

theorem maxLen_bound {ws : List Window} {n : Nat} (h : ∀ w ∈ ws, w.len ≤ n) : maxLen ws ≤ n := by
  induction ws with
  | nil => exact Nat.zero_le _
  | cons v ws ih =>
    rw [maxLen]
    have := ih fun w hw => h w (by simp [hw])
    have := h v (by simp)
    omega

theorem iterations_eq (h : Nat) (ws : List Window) : iterations h (ws.map (trim h)) = maxLen (ws.map (trim h)) := by
  have : maxLen (ws.map (trim h)) ≤ h + 1 := maxLen_bound fun w hw => by
    obtain ⟨v, -, rfl⟩ := List.mem_map.mp hw
    rw [trim_len]; omega
  unfold iterations
  omega

theorem lt_maxLen {ws : List Window} {n : Nat} : n < maxLen ws ↔ ∃ w ∈ ws, n < w.len := by
  induction ws with
  | nil => simp [maxLen]
  | cons v ws ih =>
    have : n < max v.len (maxLen ws) ↔ n < v.len ∨ n < maxLen ws := by omega
    rw [maxLen, this, ih]
    simp

theorem lt_iterations {h n : Nat} {ws : List Window} : n < iterations h (ws.map (trim h)) ↔ ∃ w ∈ ws, n < min (h + 1) w.len := by
  rw [iterations_eq, lt_maxLen]
  simp only [List.mem_map]
  constructor
  · rintro ⟨_, ⟨w, hw, rfl⟩, hn⟩
    exact ⟨w, hw, by rwa [trim_len] at hn⟩
  · rintro ⟨w, hw, hn⟩
    exact ⟨_, ⟨w, hw, rfl⟩, by rwa [trim_len]⟩

theorem start_eq (h : Nat) (zero : O) (cell : Cell X S O) (xs : List X) (ws : List Window) (ss : List S) :
    start h zero ws ss = (ws.zip ss).map fun p => rowAt cell zero xs (trim h p.1).start (trim h p.1).len p.2 0 := by
  rw [start, List.zip, List.map_zipWith]
  congr 1

/-- The loop variables after the loop. -/
def final (cell : Cell X S O) (zero : O) (h : Nat) (xs : List X) (ws : List Window) (p : Window × S) : Row S O :=
  rowAt cell zero xs (trim h p.1).start (trim h p.1).len p.2 (iterations h (ws.map (trim h)))

theorem loop_final (cell : Cell X S O) (zero : O) {h : Nat} {xs : List X} {ws : List Window} (hin : Inside xs ws) (ss : List S) :
    loop (body cell xs) (iterations h (ws.map (trim h))) (start h zero ws ss) = .ok ((ws.zip ss).map (final cell zero h xs ws)) := by
  rw [start_eq h zero cell xs, loop_ok (g := fun (p : Window × S) k => rowAt cell zero xs (trim h p.1).start (trim h p.1).len p.2 k), Nat.zero_add]
  · rfl
  · intro p hp k
    obtain ⟨h1, h2⟩ := hin p.1 (List.of_mem_zip hp).1
    exact body_rowAt cell zero (by rw [trim_len]; omega) (by rw [trim_end]; exact h2) _ _

section
variable {cell : Cell X S O} {zero : O} {h : Nat} {xs : List X} {ws : List Window} {p : Window × S}

theorem len_le_iterations (hp : p.1 ∈ ws) : (trim h p.1).len ≤ iterations h (ws.map (trim h)) := by
  rw [iterations_eq]; exact maxLen_le (List.mem_map.mpr ⟨_, hp, rfl⟩)

theorem final_state (hp : p.1 ∈ ws) : (final cell zero h xs ws p).state = finalState cell p.2 (needed h xs p.1) := by
  unfold final rowAt
  dsimp only
  rw [seen_all (len_le_iterations hp), needed_eq]

theorem final_remaining (hp : p.1 ∈ ws) : (final cell zero h xs ws p).remaining = 0 := by
  have := len_le_iterations (h := h) hp
  unfold final rowAt
  dsimp only
  omega

theorem final_idx (hp : p.1 ∈ ws) (hl : 0 < p.1.len) : (final cell zero h xs ws p).idx + 1 = p.1.start + p.1.len := by
  have h1 := len_le_iterations (h := h) hp
  have h2 := trim_end h p.1
  have h3 := trim_len h p.1
  unfold final rowAt
  dsimp only
  omega

/-- The output repeats the last input if the window is shorter than the longest one. -/
theorem final_out (hin : Inside xs ws) (hp : p.1 ∈ ws) :
    some (final cell zero h xs ws p).out = finalOutput cell p.2
      (needed h xs p.1 ++ if min (h + 1) p.1.len < iterations h (ws.map (trim h)) then ((needed h xs p.1).getLast?).toList else []) := by
  have h1 := len_le_iterations (h := h) hp
  obtain ⟨h2, h3⟩ := hin _ hp
  have h4 := trim_len h p.1
  have h5 := trim_end h p.1
  have hlen := needed_length (h := h) h3
  unfold final rowAt
  dsimp only
  rw [seen_all h1, ← needed_eq]
  by_cases e : iterations h (ws.map (trim h)) ≤ (trim h p.1).len
  · rw [if_pos e, if_neg (show ¬ min (h + 1) p.1.len < iterations h (ws.map (trim h)) by omega), List.append_nil]
    obtain ⟨l, x, e⟩ := needed_snoc (h := h) h2 h3
    rw [e, finalOutput_append]; rfl
  · rw [if_neg e, if_pos (show min (h + 1) p.1.len < iterations h (ws.map (trim h)) by omega), ← needed_last h2 h3]
    obtain ⟨l, x, e⟩ := needed_snoc (h := h) h2 h3
    rw [e, List.getLast?_append]
    exact (finalOutput_append cell p.2 (l ++ [x]) x).symm

end

theorem Contiguous.inside {ws : List Window} {n pos : Nat} (h : Contiguous n pos ws) : pos ≤ n ∧ ∀ w ∈ ws, 0 < w.len ∧ w.start + w.len ≤ n := by
  induction ws generalizing pos with
  | nil => exact ⟨Nat.le_of_eq h, by simp⟩
  | cons w ws ih =>
    obtain ⟨h1, h2, h3⟩ := h
    obtain ⟨h4, h5⟩ := ih h3
    refine ⟨by omega, fun v hv => ?_⟩
    rcases List.mem_cons.mp hv with rfl | hv
    · exact ⟨h2, by omega⟩
    · exact h5 v hv

theorem ends_eq_iff {ws : List Window} {n pos acc h : Nat} (hc : Contiguous n pos ws) (ha : acc ≤ pos) :
    ws.map (fun w => w.start + w.len) = cumsum acc ((ws.map (trim h)).map Window.len) ↔ ws = [] ∨ acc = pos ∧ ∀ w ∈ ws, w.len ≤ h + 1 := by
  induction ws generalizing pos acc with
  | nil => simp [cumsum]
  | cons w ws ih =>
    obtain ⟨h1, h2, h3⟩ := hc
    have h4 := trim_len h w
    rw [List.map_cons, List.map_cons, List.map_cons, cumsum, List.cons.injEq, ih h3 (by omega), h4]
    constructor
    · rintro ⟨e1, e2⟩
      refine .inr ⟨by omega, fun v hv => ?_⟩
      rcases List.mem_cons.mp hv with rfl | hv
      · omega
      · rcases e2 with rfl | e2
        · cases hv
        · exact e2.2 v hv
    · rintro (e | ⟨e1, e2⟩)
      · cases e
      · have := e2 w (by simp)
        exact ⟨by omega, .inr ⟨by omega, fun v hv => e2 v (by simp [hv])⟩⟩

/-- The internal check passes iff no window was shortened. -/
theorem check_iff (cell : Cell X S O) (zero : O) {h : Nat} {xs : List X} {ws : List Window} {ss : List S} (hc : Contiguous xs.length 0 ws)
    (hs : ss.length = ws.length) :
    check (ws.map (trim h)) (((ws.zip ss).map (final cell zero h xs ws)).map Row.idx) (((ws.zip ss).map (final cell zero h xs ws)).map Row.remaining) ↔
      ∀ w ∈ ws, w.len ≤ h + 1 := by
  have e1 : (((ws.zip ss).map (final cell zero h xs ws)).map Row.idx).map (· + 1) = ws.map fun w => w.start + w.len := by
    have : ws.map (fun w => w.start + w.len) = (ws.zip ss).map fun p => p.1.start + p.1.len := by
      conv => lhs; rw [← List.map_fst_zip (l₁ := ws) (l₂ := ss) (by omega), List.map_map]
      rfl
    rw [this, List.map_map, List.map_map]
    refine List.map_congr_left fun p hp => ?_
    have hp := (List.of_mem_zip hp).1
    exact final_idx hp (hc.inside.2 _ hp).1
  have e2 : (((ws.zip ss).map (final cell zero h xs ws)).map Row.remaining).sum = 0 := by
    rw [List.map_map, show (ws.zip ss).map (Row.remaining ∘ final cell zero h xs ws) = (ws.zip ss).map fun _ => 0 from
      List.map_congr_left fun p hp => final_remaining (List.of_mem_zip hp).1]
    generalize ws.zip ss = l
    induction l with
    | nil => rfl
    | cons p l ih => rw [List.map_cons, List.sum_cons, ih]
  rw [check, e1, ends_eq_iff hc (Nat.le_refl 0)]
  simp only [e2, and_true, true_and]
  constructor
  · rintro (rfl | e)
    · simp
    · exact e
  · exact .inr

/-! ### Cumulative processing -/

/-- The loop variables after `k` iterations. -/
def gatherAt (xs : List X) (a t k : Nat) : Row Unit (List X) where
  idx := a + min k (t - 1)
  remaining := t - k
  state := ()
  out := seen xs a t k ++ (List.replicate (k - t) (xs[a + (t - 1)]?).toList).flatten

theorem gatherBody_gatherAt {xs : List X} {a t : Nat} (ht : 0 < t) (ha : a + t ≤ xs.length) (k : Nat) :
    gatherBody xs (gatherAt xs a t k) = .ok (gatherAt xs a t (k + 1)) := by
  unfold gatherBody
  have hx : a + min k (t - 1) < xs.length := by omega
  rw [show xs[(gatherAt xs a t k).idx]? = some xs[a + min k (t - 1)] from List.getElem?_eq_getElem hx]
  dsimp only
  refine congrArg Except.ok ?_
  unfold gatherAt
  dsimp only
  rw [Row.mk.injEq]
  refine ⟨?_, ?_, ?_, rfl⟩
  · split <;> split at * <;> omega
  · split <;> omega
  · by_cases hk : k < t
    · rw [seen_succ hk ha, show k + 1 - t = 0 by omega, show k - t = 0 by omega]
      simp only [List.replicate_zero, List.flatten_nil, List.append_nil, Nat.min_eq_left (show k ≤ t - 1 by omega)]
    · rw [seen_all (by omega), seen_all (by omega), List.getElem?_eq_getElem (show a + (t - 1) < xs.length by omega),
        show k + 1 - t = k - t + 1 by omega, List.replicate_succ']
      simp [Nat.min_eq_right (show t - 1 ≤ k by omega)]

theorem gather_final {h : Nat} {xs : List X} {ws : List Window} (hin : Inside xs ws) :
    loop (gatherBody xs) (iterations h (ws.map (trim h))) ((ws.map (trim h)).map fun w => ⟨w.start, w.len, [], ()⟩) =
      .ok (ws.map fun w => gatherAt xs (trim h w).start (trim h w).len (iterations h (ws.map (trim h)))) := by
  rw [List.map_map, show ws.map ((fun w : Window => (⟨w.start, w.len, [], ()⟩ : Row Unit (List X))) ∘ trim h) =
    ws.map fun w => gatherAt xs (trim h w).start (trim h w).len 0 from List.map_congr_left fun w _ => by simp [gatherAt, seen],
    loop_ok (g := fun (w : Window) k => gatherAt xs (trim h w).start (trim h w).len k), Nat.zero_add]
  intro w hw k
  obtain ⟨h1, h2⟩ := hin w hw
  exact gatherBody_gatherAt (by rw [trim_len]; omega) (by rw [trim_end]; exact h2) _

theorem gather_take {h : Nat} {xs : List X} {ws : List Window} {w : Window} (hw : w ∈ ws) (hl : w.start + w.len ≤ xs.length) :
    (gatherAt xs (trim h w).start (trim h w).len (iterations h (ws.map (trim h)))).out.take (trim h w).len = needed h xs w := by
  unfold gatherAt
  dsimp only
  rw [seen_all (len_le_iterations (p := (w, ())) hw), ← needed_eq, trim_len, ← needed_length (h := h) hl, List.take_left]

theorem map_zip_unit {α β γ δ : Type} {l : List α} {F : α → β} {f : β → δ} {G : α × Unit → γ} {g : γ → δ} (h : ∀ a, f (F a) = g (G (a, ()))) :
    (l.map F).map f = ((l.zip (l.map fun _ => ())).map G).map g := by
  induction l with
  | nil => rfl
  | cons a l ih => simp only [List.map_cons, List.zip_cons_cons, h, ih]

theorem gather_check {h : Nat} {xs : List X} {ws : List Window} (hc : Contiguous xs.length 0 ws) :
    check (ws.map (trim h)) ((ws.map fun w => gatherAt xs (trim h w).start (trim h w).len (iterations h (ws.map (trim h)))).map Row.idx)
      ((ws.map fun w => gatherAt xs (trim h w).start (trim h w).len (iterations h (ws.map (trim h)))).map Row.remaining) ↔ ∀ w ∈ ws, w.len ≤ h + 1 := by
  have := check_iff (fun (_ : X) (_ : Unit) => ((), ())) () (h := h) (ss := ws.map fun _ => ()) hc (by simp)
  rw [← this]
  have e : ∀ (f : Row Unit (List X) → Nat) (g : Row Unit Unit → Nat), (∀ w k, f (gatherAt xs (trim h w).start (trim h w).len k) =
      g (rowAt (fun (_ : X) (_ : Unit) => ((), ())) () xs (trim h w).start (trim h w).len () k)) →
      (ws.map fun w => gatherAt xs (trim h w).start (trim h w).len (iterations h (ws.map (trim h)))).map f =
        ((ws.zip (ws.map fun _ => ())).map (final (fun (_ : X) (_ : Unit) => ((), ())) () h xs ws)).map g := by
    intro f g hfg
    exact map_zip_unit fun w => hfg w _
  rw [e Row.idx Row.idx fun _ _ => rfl, e Row.remaining Row.remaining fun _ _ => rfl]

end

end Verif.Layer
