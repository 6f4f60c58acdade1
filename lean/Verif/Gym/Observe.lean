import Verif.Gym.State
import Verif.Gym.Clip

/-! # Lemmas about clipped and dropped observations -/

namespace Verif.Gym

theorem clip_ok {m M : Rat} {shape : List Nat} {low high : List Num} (hw : goodBox shape low high = true)
    (hb : ∀ (i : Nat) lo hi, low[i]? = some lo → high[i]? = some hi → (lowBound m lo).le (highBound M hi) = true) :
    ∃ l, boxSpec false (some m) (some M) shape low high = .ok l ∧ l.kind = .float ∧ l.shape = shape ∧
      ∀ a : Arr, a.shape = shape → a.elems.length = size shape → a.elems.all Num.isFin = true →
        ∃ b : Arr, clip (.leaf l) (.one a) = .ok (.one b) ∧ l.fits b = true ∧
          ∀ (i : Nat) x lo hi, a.elems[i]? = some x → low[i]? = some lo → high[i]? = some hi →
            ∃ y, b.elems[i]? = some y ∧ Clamped (lowBound m lo) (highBound M hi) x y := by
  simp only [goodBox, Bool.and_eq_true, beq_iff_eq, decide_eq_true_eq] at hw
  obtain ⟨⟨⟨⟨⟨h1, h2⟩, h3⟩, h4⟩, h5⟩, h6⟩ := hw
  have hzip : ∀ (xs ys : List Num), xs.length = ys.length → (List.zipWith Num.le xs ys).all id = true →
      (∀ x ∈ xs, x ≠ Num.nan) ∧ ∀ y ∈ ys, y ≠ Num.nan := by
    intro xs
    induction xs with
    | nil => intro ys hl _; cases ys <;> simp_all
    | cons x xs ih =>
      intro ys hl h
      cases ys with
      | nil => simp at hl
      | cons y ys =>
        simp only [List.zipWith_cons_cons, List.all_cons, id, Bool.and_eq_true] at h
        obtain ⟨i1, i2⟩ := ih ys (by simpa using hl) h.2
        have hx : x ≠ .nan ∧ y ≠ .nan := by
          refine ⟨fun e => ?_, fun e => ?_⟩
          · rw [e] at h; simp [Num.le] at h
          · rw [e] at h; cases x <;> simp [Num.le] at h
        refine ⟨fun z hz => ?_, fun z hz => ?_⟩
        · rcases List.mem_cons.mp hz with e | hz
          · rw [e]; exact hx.1
          · exact i1 z hz
        · rcases List.mem_cons.mp hz with e | hz
          · rw [e]; exact hx.2
          · exact i2 z hz
  obtain ⟨hn1, hn2⟩ := hzip low high (by rw [h1, h2]) h4
  have hne2 : high ≠ [] := by
    intro e
    rw [e] at h2
    rw [← h2] at h1
    exact h3 (List.length_eq_zero_iff.mp h1)
  obtain ⟨L, hL1, hL2, hL3⟩ := lowSpec_min (m := m) h3 hn1
  obtain ⟨H, hH1, hH2, hH3⟩ := highSpec_max (m := M) hne2 hn2
  refine ⟨{ kind := .float, shape := shape, low := L, high := H }, by rw [boxSpec, hL1]; dsimp only; rw [hH1], rfl, rfl, ?_⟩
  intro a ha1 ha2 ha3
  obtain ⟨xs, hx1, hx2, hx3⟩ := clipWith_at (f := Num.max) (xs := a.elems) (L := L) (by rw [ha2, ← h1]; exact hL2)
  obtain ⟨ys, hy1, hy2, hy3⟩ := clipWith_at (f := Num.min) (xs := xs) (L := H) (by rw [hx2, ha2, ← h2]; exact hH2)
  have key : ∀ (i : Nat) x lo hi, a.elems[i]? = some x → low[i]? = some lo → high[i]? = some hi →
      ys[i]? = some ((x.max (lowBound m lo)).min (highBound M hi)) ∧
      (Clamped (lowBound m lo) (highBound M hi) x ((x.max (lowBound m lo)).min (highBound M hi)) ∧
        ((x.max (lowBound m lo)).min (highBound M hi)).isFin = true ∧
        (lowBound m lo).le ((x.max (lowBound m lo)).min (highBound M hi)) = true ∧
        ((x.max (lowBound m lo)).min (highBound M hi)).le (highBound M hi) = true) := by
    intro i x lo hi hx hlo hhi
    have e1 := hx3 i x hx
    have e2 := hy3 i _ e1
    rw [hL3 i lo hlo, hH3 i hi hhi] at e2
    refine ⟨e2, clamp_ok (bound_fin_low ?_) (bound_fin_high ?_) ?_ (hb i lo hi hlo hhi)⟩
    · rw [List.all_eq_true] at h5
      simpa using h5 lo (List.mem_of_getElem? hlo)
    · rw [List.all_eq_true] at h6
      simpa using h6 hi (List.mem_of_getElem? hhi)
    · rw [List.all_eq_true] at ha3
      exact ha3 x (List.mem_of_getElem? hx)
  have hat : ∀ (i : Nat) y, ys[i]? = some y → ∃ x lo hi, a.elems[i]? = some x ∧ low[i]? = some lo ∧ high[i]? = some hi := by
    intro i y hy
    have hi : i < a.elems.length := by rw [← hx2, ← hy2]; exact (List.getElem?_eq_some_iff.mp hy).1
    have hi1 : i < low.length := by omega
    have hi2 : i < high.length := by omega
    exact ⟨_, _, _, List.getElem?_eq_getElem hi, List.getElem?_eq_getElem hi1, List.getElem?_eq_getElem hi2⟩
  refine ⟨⟨a.shape, ys⟩, ?_, ?_, ?_⟩
  · simp only [clip, ne_eq, not_true, if_false]
    rw [hx1]
    dsimp only
    rw [hy1]
  · have hlen : ys.length = size shape := by rw [hy2, hx2, ha2]
    simp only [Leaf.fits, Bool.and_eq_true, beq_iff_eq]
    refine ⟨⟨⟨⟨ha1, hlen⟩, ?_⟩, below_at ?_ ?_⟩, above_at ?_ ?_⟩
    · rw [List.all_eq_true]
      intro y hy
      obtain ⟨i, hi, e⟩ := List.mem_iff_getElem.mp hy
      have hyi : ys[i]? = some y := by rw [List.getElem?_eq_getElem hi, e]
      obtain ⟨x, lo, hi', g1, g2, g3⟩ := hat i y hyi
      obtain ⟨k1, -, k2, -⟩ := key i x lo hi' g1 g2 g3
      rw [hyi, Option.some.injEq] at k1
      rw [← k1] at k2
      cases y <;> simp_all [Num.isFin, Leaf.okNum]
    · rw [hlen, ← h1]; exact hL2
    · intro i y b hyi hLi
      obtain ⟨x, lo, hi', g1, g2, g3⟩ := hat i y hyi
      obtain ⟨k1, -, -, k2, -⟩ := key i x lo hi' g1 g2 g3
      rw [hyi, Option.some.injEq] at k1
      rw [hL3 i lo g2, Option.some.injEq] at hLi
      rw [k1, ← hLi]
      exact k2
    · rw [hlen, ← h2]; exact hH2
    · intro i y b hyi hHi
      obtain ⟨x, lo, hi', g1, g2, g3⟩ := hat i y hyi
      obtain ⟨k1, -, -, -, k2⟩ := key i x lo hi' g1 g2 g3
      rw [hyi, Option.some.injEq] at k1
      rw [hH3 i hi' g3, Option.some.injEq] at hHi
      rw [k1, ← hHi]
      exact k2
  · intro i x lo hi g1 g2 g3
    obtain ⟨k1, k2, -⟩ := key i x lo hi g1 g2 g3
    exact ⟨_, k1, k2⟩

theorem flatten_shape (l : Leaf) (shape : List Nat) (actions : Option Spec) (a : Arr) :
    flattenState (.leaf { l with shape := shape }) actions (.array a) = flattenState (.leaf l) actions (.array a) := rfl

theorem clip_shape (l : Leaf) (shape : List Nat) (f : Flat) : clip (.leaf { l with shape := shape }) f = clip (.leaf l) f := by
  cases f <;> rfl

theorem same_below {L : Limit} (h : L.same = true) {xs ys : List Num} (hs : ∀ x ∈ ys, x ∈ xs) (hb : L.below xs = true) : L.below ys = true := by
  cases L with
  | none => rfl
  | scalar m =>
    simp only [Limit.below, List.all_eq_true] at hb ⊢
    exact fun x hx => hb x (hs x hx)
  | array ms => simp [Limit.same] at h

theorem same_above {L : Limit} (h : L.same = true) {xs ys : List Num} (hs : ∀ x ∈ ys, x ∈ xs) (hb : L.above xs = true) : L.above ys = true := by
  cases L with
  | none => rfl
  | scalar m =>
    simp only [Limit.above, List.all_eq_true] at hb ⊢
    exact fun x hx => hb x (hs x hx)
  | array ms => simp [Limit.same] at h

theorem drop_ok {opts : Options} {indices : List Nat} (hd : opts.drop = some indices) {space : Space} {l : Leaf} {n : Nat}
    (hs : statesSpec opts.undropped space = .ok (.leaf l)) (hl : l.shape = [n]) (hn : indices.Nodup) (hi : ∀ i ∈ indices, i < n)
    {actions : Spec} {a b : Arr} (hv : observe opts.undropped (.leaf l) actions (.array a) = .ok (.one b)) (hf : l.fits b = true) :
    statesSpec opts space = .ok (.leaf { l with shape := [n - indices.length] }) ∧
    observe opts (.leaf { l with shape := [n - indices.length] }) actions (.array a) =
      .ok (.one ⟨[n - indices.length], without indices 0 b.elems⟩) ∧
    (without indices 0 b.elems).length = n - indices.length ∧
    (l.low.same = true → l.high.same = true →
      Leaf.fits { l with shape := [n - indices.length] } ⟨[n - indices.length], without indices 0 b.elems⟩ = true) := by
  simp only [Leaf.fits, Bool.and_eq_true, beq_iff_eq] at hf
  obtain ⟨⟨⟨⟨f1, f2⟩, f3⟩, f4⟩, f5⟩ := hf
  have hbl : b.elems.length = n := by rw [f2, hl]; simp [size]
  have hsort : dropElems (sort indices) b.elems = without indices 0 b.elems := by
    rw [dropElems_eq (sort_sorted hn)]
    exact without_congr _ _ (fun i _ => sort_mem)
  have hlen : (without indices 0 b.elems).length = n - indices.length := by
    have h := without_length (sort_sorted hn) b.elems 0 (fun i h => ⟨Nat.zero_le _, by
      rw [hbl]
      have := hi i (sort_mem.mp h)
      omega⟩)
    rw [without_congr b.elems 0 (k := indices) (fun i _ => sort_mem), sort_length] at h
    omega
  refine ⟨?_, ?_, hlen, fun g1 g2 => ?_⟩
  · simp only [statesSpec, Options.undropped] at hs ⊢
    rw [hd]
    split at hs
    · simp at hs
    · rename_i heq _
      simp only [Except.ok.injEq] at hs
      rw [hs] at heq
      rw [heq]
      dsimp only
      rw [hl]
    · rename_i heq; simp at heq
    · rename_i heq; simp at heq
  · simp only [observe, Options.undropped] at hv ⊢
    rw [flatten_shape, hd]
    cases hfl : flattenState (.leaf l) (some actions) (.array a) with
    | error e => rw [hfl] at hv; simp at hv
    | ok f =>
      rw [hfl] at hv
      dsimp only at hv ⊢
      rw [clipped, clip_shape, ← clipped]
      have hc' : clipped { opts with drop := none } (.leaf l) f = clipped opts (.leaf l) f := rfl
      rw [hc'] at hv
      cases hc : clipped opts (.leaf l) f with
      | error e => rw [hc] at hv; simp at hv
      | ok g =>
        rw [hc] at hv
        simp only [Except.ok.injEq] at hv
        subst hv
        dsimp only
        rw [dropStates, hsort, hlen]
  · simp only [Leaf.fits, Bool.and_eq_true, beq_iff_eq]
    refine ⟨⟨⟨⟨trivial, by rw [hlen]; simp [size]⟩, ?_⟩, same_below g1 (without_sub indices b.elems 0) f4⟩,
      same_above g2 (without_sub indices b.elems 0) f5⟩
    rw [List.all_eq_true] at f3 ⊢
    exact fun x hx => f3 x (without_sub indices b.elems 0 x hx)

end Verif.Gym
