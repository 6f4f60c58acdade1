import Verif.Game.Spec
import Mathlib.Tactic.Ring
import Mathlib.Tactic.Linarith

/-! # Lemmas on the adapters of game simulators -/

namespace Verif.Game

variable {σ α : Type}

theorem item_nat {β : Type} (l : List β) (k : Nat) {a : β} (h : l[k]? = some a) : item l (k : Int) = .ok a := by
  unfold item
  rw [if_pos (Int.natCast_nonneg k)]
  simp [h]

theorem allowed_nat {n : Nat} {a : Int} (h : Allowed n a) : ∃ k : Nat, a = k ∧ k < n :=
  ⟨a.toNat, by have := h.1; have := h.2; omega, by have := h.1; have := h.2; omega⟩

theorem item_allowed {β : Type} (l : List β) {a : Int} (h : Allowed l.length a) : ∃ k : Nat, a = k ∧ ∃ x, l[k]? = some x ∧ item l a = .ok x := by
  obtain ⟨k, rfl, hk⟩ := allowed_nat h
  exact ⟨k, rfl, l[k], List.getElem?_eq_getElem hk, item_nat l k (List.getElem?_eq_getElem hk)⟩

/-- The outcome of one step with respect to the lowest number of lives so far. -/
def record (g : Console σ α) (c : Arcade) (low : Int) (r : Rat) (t : σ) : Out (List Rat) where
  states := (g.screen t).map (fun (b : Nat) => (b : Rat) / 255)
  terminal := g.over t || (c.terminal && decide (g.lives t < low))
  reward := r - if g.lives t < low ∧ c.terminal = false then max c.punishment 0 else 0

theorem arcadeAfter_eq (c : Arcade) (g : Console σ α) (low : Int) (t : σ) (r : Rat) :
    arcadeAfter c g low t r = ((t, min low (g.lives t)), record g c low r t) := by
  unfold arcadeAfter normalize record
  by_cases h : g.lives t < low
  · rw [if_pos h, min_eq_right (le_of_lt h)]
    cases hc : c.terminal
    · by_cases hp : 0 < c.punishment
      · simp [h, hp, max_eq_left (le_of_lt hp)]
      · simp [h, hp, max_eq_right (not_lt.mp hp)]
    · simp [h]
  · rw [if_neg h, min_eq_left (not_lt.mp h)]
    simp [h]

theorem records_cons (c : Arcade) (g : Console σ α) (low : Int) (e : σ × Rat × σ) (l : List (σ × Rat × σ)) :
    records g c low (e :: l) = record g c low e.2.1 e.2.2 :: records g c (min low (g.lives e.2.2)) l := rfl

theorem run_records (c : Arcade) (g : Console σ α) {s t : σ} {ks : List Int} {l : List (σ × Rat × σ)} (h : Played g s ks l t) (low : Int) :
    arcadeRun c g (s, low) ks = .ok ((t, (l.map (fun e => g.lives e.2.2)).foldl min low), records g c low l) := by
  induction h generalizing low with
  | nil s => rfl
  | @cons s t k a ks l hk _ ih =>
    simp only [arcadeRun, arcadeExecute, item_nat _ _ hk]
    rw [arcadeAfter_eq c g low]
    simp only
    rw [ih, records_cons]
    simp

theorem played_exists (g : Console σ α) (s : σ) (ks : List Int) (h : ∀ k ∈ ks, Allowed (arcadeActions g) k) : ∃ l t, Played g s ks l t := by
  induction ks generalizing s with
  | nil => exact ⟨[], s, Played.nil s⟩
  | cons k ks ih =>
    obtain ⟨k, rfl, x, hx, _⟩ := item_allowed g.legal (h k (List.mem_cons_self ..))
    obtain ⟨l, t, hp⟩ := ih (g.act s x).1 (fun j hj => h j (List.mem_cons_of_mem _ hj))
    exact ⟨_, _, Played.cons hx hp⟩

theorem played_length {g : Console σ α} {s t : σ} {ks : List Int} {l : List (σ × Rat × σ)} (h : Played g s ks l t) : l.length = ks.length := by
  induction h with
  | nil s => rfl
  | cons _ _ ih => rw [List.length_cons, List.length_cons, ih]

theorem records_length (g : Console σ α) (c : Arcade) (low : Int) (l : List (σ × Rat × σ)) : (records g c low l).length = l.length := by
  induction l generalizing low with
  | nil => rfl
  | cons e l ih => rw [records, List.length_cons, List.length_cons, ih]

theorem records_documented (g : Console σ α) (hg : ∀ s a, g.lives (g.act s a).1 ≤ g.lives s) (terminate : Bool) (w : Rat)
    (hw : w = 0 ∨ (terminate = false ∧ w ≤ 0)) {s t : σ} {ks : List Int} {l : List (σ × Rat × σ)} (h : Played g s ks l t) :
    records g ⟨terminate, -w⟩ (g.lives s) l = l.map (documented g terminate w) := by
  induction h with
  | nil s => rfl
  | @cons s t k a ks l hk _ ih =>
    rw [List.map_cons, ← ih, records]
    have e : min (g.lives s) (g.lives (g.act s a).1) = g.lives (g.act s a).1 := min_eq_right (hg s a)
    simp only [e, documented]
    congr 2
    by_cases hl : g.lives (g.act s a).1 < g.lives s
    · rcases hw with rfl | ⟨rfl, hw⟩
      · simp
      · have hm : max (-w) 0 = -w := max_eq_left (by linarith)
        simp [hl, hm]
    · simp [hl]

theorem sum_documented (g : Console σ α) (terminate : Bool) (w : Rat) (l : List (σ × Rat × σ)) :
    ((l.map (documented g terminate w)).map (fun o => o.reward)).sum = (l.map (fun e => e.2.1)).sum + losses g l * w := by
  induction l with
  | nil => simp [losses]
  | cons e l ih =>
    simp only [List.map_cons, List.sum_cons, ih]
    unfold losses documented
    rw [List.countP_cons]
    by_cases h : g.lives e.2.2 < g.lives e.1
    · simp only [h, if_true, decide_true]; push_cast; ring
    · simp only [h, if_false, decide_false, Bool.false_eq_true, if_false]; push_cast; ring

theorem normalize_range (screen : List Nat) (h : ∀ b ∈ screen, b ≤ 255) : ∀ x ∈ normalize screen, 0 ≤ x ∧ x ≤ 1 := by
  intro x hx
  obtain ⟨b, hb, rfl⟩ := List.mem_map.mp hx
  have := h b hb
  have h1 : (b : Rat) ≤ 255 := by exact_mod_cast this
  have h0 : (0 : Rat) ≤ b := by exact_mod_cast Nat.zero_le b
  constructor
  · linarith
  · linarith

theorem product_length (n : Nat) : (product n).length = 2 ^ n := by
  induction n with
  | zero => rfl
  | succ n ih => simp [product, ih]; omega

theorem product_get (n k : Nat) (hk : k < 2 ^ n) : (product n)[k]? = some ((List.range n).map (digit n k)) := by
  induction n generalizing k with
  | zero =>
    have : k = 0 := by simpa using hk
    subst this; rfl
  | succ n ih =>
    have hp : 0 < 2 ^ n := Nat.two_pow_pos n
    rw [product]
    by_cases h : k < 2 ^ n
    · rw [List.getElem?_append_left (by simpa [product_length] using h), List.getElem?_map, ih k h, List.range_succ_eq_map]
      simp only [Option.map_some, List.map_cons, List.map_map]
      congr 2
      · unfold digit
        rw [show n + 1 - 1 - 0 = n by omega, Nat.div_eq_of_lt h]
      · apply List.map_congr_left
        intro j _
        unfold digit
        simp only [Function.comp]
        rw [show n + 1 - 1 - j.succ = n - 1 - j by omega]
    · have h2 : k - 2 ^ n < 2 ^ n := by rw [Nat.pow_succ] at hk; omega
      rw [List.getElem?_append_right (by simpa [product_length] using h), List.getElem?_map]
      simp only [List.length_map, product_length]
      rw [ih _ h2, List.range_succ_eq_map]
      simp only [Option.map_some, List.map_cons, List.map_map]
      congr 2
      · unfold digit
        rw [show n + 1 - 1 - 0 = n by omega]
        have : k / 2 ^ n = 1 := by
          rw [Nat.div_eq_iff hp]
          omega
        rw [this]
      · apply List.map_congr_left
        intro j hj
        have hj : j < n := List.mem_range.mp hj
        unfold digit
        simp only [Function.comp]
        rw [show n + 1 - 1 - j.succ = n - 1 - j by omega]
        obtain ⟨i, hi⟩ : ∃ i, n = (n - 1 - j) + (i + 1) := ⟨j, by omega⟩
        generalize n - 1 - j = m at hi
        subst hi
        have : k = (k - 2 ^ (m + (i + 1))) + 2 ^ m * (2 * 2 ^ i) := by
          have e : 2 ^ m * (2 * 2 ^ i) = 2 ^ (m + (i + 1)) := by rw [Nat.pow_add, Nat.pow_succ, Nat.mul_comm (2 ^ i)]
          rw [e]; omega
        rw [this, Nat.add_mul_div_left _ _ (Nat.two_pow_pos m), Nat.add_mul_mod_self_left, ← this]

/-- The number with these binary digits. -/
def ofDigits : List Bool → Nat
  | [] => 0
  | b :: l => (if b then 2 ^ l.length else 0) + ofDigits l

theorem ofDigits_lt (l : List Bool) : ofDigits l < 2 ^ l.length := by
  induction l with
  | nil => simp [ofDigits]
  | cons b l ih => cases b <;> simp [ofDigits, Nat.pow_succ] <;> omega

theorem product_ofDigits (l : List Bool) : (product l.length)[ofDigits l]? = some (l.map (fun b => if b then 1 else 0)) := by
  induction l with
  | nil => rfl
  | cons b l ih =>
    have hl := ofDigits_lt l
    simp only [List.length_cons, product, List.map_cons]
    cases b
    · simp only [ofDigits, Bool.false_eq_true, if_false, Nat.zero_add]
      rw [List.getElem?_append_left (by simpa [product_length] using hl), List.getElem?_map, ih]
      rfl
    · simp only [ofDigits, if_true]
      rw [List.getElem?_append_right (by simp [product_length])]
      simp only [List.length_map, product_length, Nat.add_sub_cancel_left]
      rw [List.getElem?_map, ih]
      rfl

theorem product_nodup (n : Nat) : (product n).Nodup := by
  induction n with
  | zero => simp [product]
  | succ n ih =>
    rw [product, List.nodup_append]
    refine ⟨?_, ?_, ?_⟩
    · exact List.pairwise_map.mpr (ih.imp (fun h e => h (by injection e)))
    · exact List.pairwise_map.mpr (ih.imp (fun h e => h (by injection e)))
    · intro a ha b hb
      obtain ⟨x, _, rfl⟩ := List.mem_map.mp ha
      obtain ⟨y, _, rfl⟩ := List.mem_map.mp hb
      simp

theorem after_step (g : Doom σ) (b : List Nat) (s : σ) (k : Nat) : after g b (g.step s b) k = after g b s (k + 1) := by
  induction k with
  | zero => rfl
  | succ k ih => rw [after, ih]; rfl

theorem advance_eq (g : Doom σ) (b : List Nat) (n : Nat) (s : σ) (r : Rat) :
    advance g b n s r = (after g b s n, r + ((List.range n).map (fun k => g.reward (after g b s (k + 1)))).sum) := by
  induction n generalizing s r with
  | zero => simp [advance, after]
  | succ n ih =>
    rw [advance, ih, after_step, List.range_succ_eq_map]
    simp only [List.map_cons, List.sum_cons, List.map_map]
    have : ((fun k => g.reward (after g b s (k + 1))) ∘ Nat.succ) = fun k => g.reward (after g b (g.step s b) (k + 1)) := by
      funext k; simp only [Function.comp]; rw [after_step]
    rw [this]
    have e : after g b s (0 + 1) = g.step s b := rfl
    rw [e]
    congr 1
    ring

theorem running_step (g : Doom σ) (b : List Nat) (s : σ) (k : Nat) :
    Running g b s (k + 1) ↔ g.finished s = false ∧ Running g b (g.step s b) k := by
  constructor
  · intro h
    refine ⟨h 0 (Nat.zero_le _), fun j hj => ?_⟩
    rw [after_step]
    exact h (j + 1) (by omega)
  · rintro ⟨h0, h⟩ j hj
    cases j with
    | zero => exact h0
    | succ j =>
      rw [← after_step]
      exact h j (by omega)

theorem running_zero (g : Doom σ) (b : List Nat) (s : σ) : Running g b s 0 ↔ g.finished s = false :=
  ⟨fun h => h 0 (Nat.le_refl _), fun h j hj => by have : j = 0 := Nat.le_zero.mp hj; subst this; exact h⟩

theorem frames_succ (g : Doom σ) (b : List Nat) (n : Nat) (s : σ) :
    frames g b (n + 1) s = if g.finished s then [] else 0 :: (frames g b n (g.step s b)).map Nat.succ := by
  unfold frames
  rw [List.range_succ_eq_map, List.filter_cons, List.filter_map]
  cases h : g.finished s
  · have h0 : Running g b s 0 := (running_zero g b s).mpr h
    simp only [h0, decide_true, if_true, Bool.false_eq_true, if_false]
    congr 2
    apply List.filter_congr
    intro k _
    simp only [Function.comp]
    rw [decide_eq_decide]
    exact (running_step g b s k).trans ⟨fun x => x.2, fun x => ⟨h, x⟩⟩
  · have h0 : ¬ Running g b s 0 := fun x => by rw [running_zero] at x; rw [h] at x; cases x
    simp only [h0, decide_false, Bool.false_eq_true, if_false, if_true]
    rw [List.map_eq_nil_iff, List.filter_eq_nil_iff]
    intro k _ x
    have x := of_decide_eq_true x
    rw [(running_step g b s k)] at x
    rw [h] at x
    cases x.1

theorem makeAction_eq (g : Doom σ) (b : List Nat) (n : Nat) (s : σ) :
    makeAction g b n s = (after g b s (frames g b n s).length, ((frames g b n s).map (fun k => g.reward (after g b s (k + 1)))).sum) := by
  induction n generalizing s with
  | zero => simp [makeAction, frames, after]
  | succ n ih =>
    rw [makeAction, frames_succ]
    cases h : g.finished s
    · simp only [Bool.false_eq_true, if_false, List.length_cons, List.length_map, List.map_cons, List.map_map, List.sum_cons]
      rw [ih, after_step]
      have : ((fun k => g.reward (after g b s (k + 1))) ∘ Nat.succ) = fun k => g.reward (after g b (g.step s b) (k + 1)) := by
        funext k; simp only [Function.comp]; rw [after_step]
      rw [this]
      rfl
    · simp [after]

theorem frames_all (g : Doom σ) (b : List Nat) (n : Nat) (s : σ) (h : ∀ k < n, g.finished (after g b s k) = false) :
    frames g b n s = List.range n := by
  unfold frames
  rw [List.filter_eq_self]
  intro k hk
  have hk := List.mem_range.mp hk
  exact decide_eq_true (fun j hj => h j (by omega))

end Verif.Game
