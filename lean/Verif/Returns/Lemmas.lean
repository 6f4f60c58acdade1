import Verif.Returns.Spec

/-! Helper lemmas: the three return computations equal the truncated λ-return. -/

namespace Verif.Returns

theorem allReturns_length (γ l : Rat) (h : Nat) (P : List (Rat × Rat)) :
    (allReturns γ l h P).length = P.length := by
  induction P with
  | nil => rfl
  | cons p P ih => simp [allReturns, ih]

theorem allReturns_drop (γ l : Rat) (h : Nat) (P : List (Rat × Rat)) (n : Nat) :
    (allReturns γ l h P).drop n = allReturns γ l h (P.drop n) := by
  induction P generalizing n with
  | nil => simp [allReturns]
  | cons p P ih =>
    cases n with
    | zero => rfl
    | succ n => simp [allReturns, ih]

theorem allReturns_getElem? (γ l : Rat) (h : Nat) (P : List (Rat × Rat)) (t : Nat) (ht : t < P.length) :
    (allReturns γ l h P)[t]? = some (lamReturn γ l h (P.drop t)) := by
  induction P generalizing t with
  | nil => simp at ht
  | cons p P ih =>
    cases t with
    | zero => rfl
    | succ t => simp at ht; simp [allReturns, ih t ht]

theorem lamReturn_zeros (γ l : Rat) (n k : Nat) :
    lamReturn γ l n (List.replicate k (0, 0)) = 0 := by
  induction n generalizing k with
  | zero => cases k <;> rfl
  | succ n ih =>
    cases k with
    | zero => rfl
    | succ k =>
      have hv : headValue (List.replicate k (0, 0)) = 0 := by cases k <;> rfl
      rw [List.replicate_succ, lamReturn, ih, hv]
      grind

/-- Padding with zero rewards and values does not change returns. -/
theorem lamReturn_pad (γ l : Rat) (n k : Nat) (P : List (Rat × Rat)) :
    lamReturn γ l n (P ++ List.replicate k (0, 0)) = lamReturn γ l n P := by
  induction P generalizing n with
  | nil => rw [List.nil_append, lamReturn_zeros]; cases n <;> rfl
  | cons p P ih =>
    obtain ⟨r, v⟩ := p
    cases n with
    | zero => rfl
    | succ n =>
      have hv : headValue (P ++ List.replicate k (0, 0)) = headValue P := by
        cases P with
        | nil => cases k <;> rfl
        | cons q P => rfl
      rw [List.cons_append, lamReturn, lamReturn, ih, hv]

/-- A horizon beyond the end of the episode has no effect. -/
theorem lamReturn_sat (γ l : Rat) (n m : Nat) (P : List (Rat × Rat)) (hn : P.length ≤ n)
    (hm : P.length ≤ m) : lamReturn γ l n P = lamReturn γ l m P := by
  induction P generalizing n m with
  | nil => cases n <;> cases m <;> rfl
  | cons p P ih =>
    obtain ⟨r, v⟩ := p
    cases n with
    | zero => simp at hn
    | succ n =>
      cases m with
      | zero => simp at hm
      | succ m =>
        simp at hn hm
        rw [lamReturn, lamReturn, ih n m hn hm]

theorem allReturns_sat (γ l : Rat) (n m : Nat) (P : List (Rat × Rat)) (hn : P.length ≤ n)
    (hm : P.length ≤ m) : allReturns γ l n P = allReturns γ l m P := by
  induction P with
  | nil => rfl
  | cons p P ih =>
    simp at hn hm
    rw [allReturns, allReturns, ih (by omega) (by omega),
      lamReturn_sat γ l n m (p :: P) (by simpa using hn) (by simpa using hm)]

/-- Later timesteps do not matter for returns whose horizon lies inside `A`. -/
theorem lamReturn_append (γ l : Rat) (h : Nat) (A X : List (Rat × Rat)) (hA : h < A.length) :
    lamReturn γ l h (A ++ X) = lamReturn γ l h A := by
  induction A generalizing h with
  | nil => simp at hA
  | cons p A ih =>
    obtain ⟨r, v⟩ := p
    cases h with
    | zero => rfl
    | succ h =>
      simp at hA
      have hv : headValue (A ++ X) = headValue A := by
        cases A with
        | nil => simp at hA
        | cons q A => rfl
      rw [List.cons_append, lamReturn, lamReturn, ih h hA, hv]

theorem allReturns_take_append (γ l : Rat) (h n : Nat) (A X : List (Rat × Rat)) (hA : n + h ≤ A.length) :
    (allReturns γ l h (A ++ X)).take n = (allReturns γ l h A).take n := by
  induction A generalizing n with
  | nil =>
    have : n = 0 := by simp at hA; omega
    simp [this]
  | cons p A ih =>
    cases n with
    | zero => simp
    | succ n =>
      simp at hA
      rw [List.cons_append, allReturns, allReturns, List.take_succ_cons, List.take_succ_cons,
        ih n (by omega), ← List.cons_append, lamReturn_append _ _ _ _ _ (by simp; omega)]

theorem vadd_eq {x y : List Rat} (h : x.length = y.length) : vadd x y = some (List.zipWith (· + ·) x y) := by
  simp [vadd, h]

/-- One recursion step of `tf.foldr` peels off the first index. -/
theorem foldReturns_succ {σ : Type} (c : Config σ) (reward values : List Rat) (n h : Nat) (init : List Rat) :
    foldReturns c reward values n (h + 1) init =
      (foldReturns c reward.tail values.tail n h init).bind (fun next => retStep c reward values n next 0) := by
  have hs : ∀ i next, retStep c reward values n next (i + 1) = retStep c reward.tail values.tail n next i := by
    intro i next
    simp [retStep, slice]
  unfold foldReturns
  rw [List.range_succ_eq_map, List.foldr_cons, List.foldr_map]
  simp only [hs]

theorem map_fst_take {Q : List (Rat × Rat)} {reward : List Rat} {n : Nat} (hQ : n ≤ Q.length)
    (h : ∀ j, j < n → reward[j]? = (Q[j]?).map Prod.fst) : reward.take n = (Q.take n).map Prod.fst := by
  apply List.ext_getElem?
  intro j
  rw [List.getElem?_map, List.getElem?_take, List.getElem?_take]
  by_cases hj : j < n
  · simp [hj, h j hj]
  · simp [hj]

theorem map_snd_take {Q : List (Rat × Rat)} {values : List Rat} {n : Nat}
    (h : ∀ j, j < n → values[j]? = (Q[j + 1]?).map Prod.snd) :
    values.take n = (Q.tail.take n).map Prod.snd := by
  apply List.ext_getElem?
  intro j
  rw [List.getElem?_map, List.getElem?_take, List.getElem?_take]
  by_cases hj : j < n
  · simp [hj, h j hj]
  · simp [hj]

/-- The vectorised recursion computes truncated λ-returns of a (padded) sequence `Q`. -/
theorem foldReturns_eq {σ : Type} (c : Config σ) (n : Nat) (h : Nat) :
    ∀ (Q : List (Rat × Rat)) (reward values : List Rat), n + h ≤ Q.length →
    (∀ j, j + 1 < n + h → reward[j]? = (Q[j]?).map Prod.fst) →
    (c.lam ≠ none → ∀ j, j + 1 < n + h → values[j]? = (Q[j + 1]?).map Prod.snd) →
    foldReturns c reward values n h ((slice Q h n).map Prod.snd) =
      some ((List.range n).map (fun t => lamReturn c.gamma c.trace h (Q.drop t))) := by
  induction h with
  | zero =>
    intro Q reward values hQ _ _
    simp only [foldReturns, List.range_zero, List.foldr_nil, Option.some.injEq]
    apply List.ext_getElem?
    intro t
    simp only [slice, List.drop_zero, List.getElem?_map, List.getElem?_take]
    by_cases ht : t < n
    · have hq : t < Q.length := by omega
      simp only [ht, if_true, List.getElem?_range ht, Option.map_some]
      rw [List.getElem?_eq_getElem hq, List.drop_eq_getElem_cons hq]
      simp [lamReturn]
    · simp [ht]
  | succ h ih =>
    intro Q reward values hQ hR hV
    have hinit : slice Q (h + 1) n = slice Q.tail h n := by simp [slice]
    have hIH := ih Q.tail reward.tail values.tail (by simp; omega)
      (by intro j hj; simpa using hR (j + 1) (by omega))
      (by intro hl j hj; simpa using hV hl (j + 1) (by omega))
    rw [foldReturns_succ, hinit, hIH, Option.bind_some]
    have hr : slice reward 0 n = (Q.take n).map Prod.fst := by
      simp only [slice, List.drop_zero]
      exact map_fst_take (by omega) (fun j hj => hR j (by omega))
    have key : ∀ t, t < n → ∃ r v rest, Q.drop t = (r, v) :: rest ∧ (Q.take n)[t]? = some (r, v) ∧
        Q.tail.drop t = rest ∧ (Q.tail.take n)[t]? = some (rest.headD (0, 0)) ∧
        headValue rest = (rest.headD (0, 0)).2 := by
      intro t ht
      have h1 : t < Q.length := by omega
      have h2 : t + 1 < Q.length := by omega
      refine ⟨Q[t].1, Q[t].2, Q.drop (t + 1), ?_, ?_, ?_, ?_, ?_⟩
      · rw [List.drop_eq_getElem_cons h1]
      · rw [List.getElem?_take, if_pos ht, List.getElem?_eq_getElem h1]
      · simp
      · rw [List.getElem?_take, if_pos ht, List.drop_eq_getElem_cons h2]
        simp [h2]
      · rw [List.drop_eq_getElem_cons h2]
        rfl
    unfold retStep
    cases hlam : c.lam with
    | none =>
      simp only
      rw [hr, vadd_eq (by simp [vscale]; omega)]
      congr 1
      apply List.ext_getElem?
      intro t
      by_cases ht : t < n
      · obtain ⟨r, v, rest, e1, e2, e3, e4, e5⟩ := key t ht
        simp only [List.getElem?_zipWith, List.getElem?_map, e2, vscale, List.getElem?_range ht, Option.map_some,
          e3, e1, Config.trace, hlam, Option.getD_none, lamReturn]
        congr 1
        grind
      · rw [List.getElem?_eq_none (by simp [vscale]; omega), List.getElem?_eq_none (by simp; omega)]
    | some l =>
      have hv : slice values 0 n = (Q.tail.take n).map Prod.snd := by
        simp only [slice, List.drop_zero]
        exact map_snd_take (fun j hj => hV (by simp [hlam]) j (by omega))
      simp only
      rw [hr, hv, vadd_eq (by simp [vscale]; omega), Option.bind_some, vadd_eq (by simp [vscale]; omega)]
      congr 1
      apply List.ext_getElem?
      intro t
      by_cases ht : t < n
      · obtain ⟨r, v, rest, e1, e2, e3, e4, e5⟩ := key t ht
        simp only [List.getElem?_zipWith, List.getElem?_map, e2, e4, vscale, List.getElem?_range ht, Option.map_some,
          e3, e1, Config.trace, hlam, Option.getD_some, lamReturn, e5]
      · rw [List.getElem?_eq_none (by simp [vscale]; omega), List.getElem?_eq_none (by simp; omega)]

theorem range_map_allReturns (γ l : Rat) (h n : Nat) (Q : List (Rat × Rat)) (hn : n ≤ Q.length) :
    (List.range n).map (fun t => lamReturn γ l h (Q.drop t)) = (allReturns γ l h Q).take n := by
  apply List.ext_getElem?
  intro t
  by_cases ht : t < n
  · rw [List.getElem?_map, List.getElem?_range ht, List.getElem?_take, if_pos ht,
      allReturns_getElem? _ _ _ _ _ (by omega)]
    rfl
  · rw [List.getElem?_eq_none (by simp; omega), List.getElem?_eq_none (by simp; omega)]

theorem plain_append {σ : Type} (c : Config σ) (A B : List (Item σ)) :
    plain c (A ++ B) = plain c A ++ plain c B := by simp [plain]

theorem plain_length {σ : Type} (c : Config σ) (A : List (Item σ)) : (plain c A).length = A.length := by
  simp [plain]

theorem finished_append {σ : Type} (c : Config σ) (A B : List (Item σ)) (hB : B ≠ []) :
    finished c (A ++ B) = plain c A ++ finished c B := by
  induction A with
  | nil => rfl
  | cons x A ih =>
    obtain ⟨s, t, r⟩ := x
    cases hA : A ++ B with
    | nil => simp at hA; exact absurd hA.2 hB
    | cons y L =>
      rw [List.cons_append, hA, finished, ← hA, ih]
      rfl

theorem finished_concat {σ : Type} (c : Config σ) (A : List (Item σ)) (s : σ) (t : Nat) (r : Rat) :
    finished c (A ++ [(s, t, r)]) = plain c A ++ [(if c.boots t then c.ev s else r, c.ev s)] := by
  rw [finished_append _ _ _ (by simp)]
  rfl

theorem eq_nil_or_concat' {α : Type} (L : List α) : L = [] ∨ ∃ A x, L = A ++ [x] := by
  by_cases h : L = []
  · exact Or.inl h
  · exact Or.inr ⟨L.dropLast, L.getLast h, (List.dropLast_concat_getLast h).symm⟩

theorem finished_length {σ : Type} (c : Config σ) (L : List (Item σ)) : (finished c L).length = L.length := by
  rcases eq_nil_or_concat' L with h | ⟨A, ⟨s, t, r⟩, h⟩
  · rw [h]; rfl
  · rw [h, finished_concat]; simp [plain_length]

end Verif.Returns
