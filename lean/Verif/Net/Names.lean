import Verif.Net.AcceptSpec
import Verif.Net.Lemmas

/-! # Default names of layers -/

namespace Verif.Net

theorem split_unique : ∀ (a b x y : List Char) (c d : Char), c.isDigit = false → d.isDigit = false → (∀ z ∈ x, z.isDigit = true) → (∀ z ∈ y, z.isDigit = true) →
    a ++ [c] ++ x = b ++ [d] ++ y → a ++ [c] = b ++ [d] ∧ x = y := by
  intro a
  induction a with
  | nil =>
    intro b x y c d hc hd hx hy h
    cases b with
    | nil => injection h with h1 h2; subst h1 h2; exact ⟨rfl, rfl⟩
    | cons e b =>
      injection h with h1 h2
      have : d ∈ x := by
        show d ∈ [] ++ x
        have h2' : [] ++ x = b ++ [d] ++ y := h2
        rw [h2']
        simp
      rw [hx d this] at hd
      cases hd
  | cons e a ih =>
    intro b x y c d hc hd hx hy h
    cases b with
    | nil =>
      injection h with h1 h2
      have : c ∈ y := by
        have h2' : a ++ [c] ++ x = y := h2
        rw [← h2']
        simp
      rw [hy c this] at hc
      cases hc
    | cons f b =>
      injection h with h1 h2
      obtain ⟨g1, g2⟩ := ih b x y c d hc hd hx hy h2
      exact ⟨by rw [h1, List.cons_append, g1]; rfl, g2⟩

theorem defaultName_inj {s t : String} {j k : Nat} (hs : TypeName s) (ht : TypeName t) (h : s ++ toString j = t ++ toString k) : s = t ∧ j = k := by
  obtain ⟨a, c, ha, hc⟩ := hs
  obtain ⟨b, d, hb, hd⟩ := ht
  have h' := congrArg String.toList h
  have e : ∀ n : Nat, (toString n).toList = Nat.toDigits 10 n := fun n => Nat.toList_repr
  rw [String.toList_append, String.toList_append, e, e, ha, hb] at h'
  obtain ⟨g1, g2⟩ := split_unique a b _ _ c d hc hd (fun z hz => Nat.isDigit_of_mem_toDigits (by decide) (by decide) hz)
    (fun z hz => Nat.isDigit_of_mem_toDigits (by decide) (by decide) hz) h'
  refine ⟨String.toList_inj.mp (by rw [ha, hb, g1]), ?_⟩
  have := congrArg (fun l => Nat.ofDigitChars 10 l 0) g2
  simpa only [Nat.ofDigitChars_ten_toDigits] using this

/-- Names given with numbers between two counters. -/
def Between (c c' : Counter) (n : String) : Prop := ∃ t k, TypeName t ∧ n = t ++ toString k ∧ c.get t ≤ k ∧ k < c'.get t

/-- The counter does not decrease, and the names are different and between the counters. -/
def Counted (c c' : Counter) (ns : List String) : Prop := (∀ t, c.get t ≤ c'.get t) ∧ ns.Nodup ∧ ∀ n ∈ ns, Between c c' n

theorem Counted.append {c c' c'' : Counter} {ns ms : List String} (h : Counted c c' ns) (h' : Counted c' c'' ms) : Counted c c'' (ns ++ ms) := by
  refine ⟨fun t => Nat.le_trans (h.1 t) (h'.1 t), ?_, ?_⟩
  · rw [List.nodup_append]
    refine ⟨h.2.1, h'.2.1, fun x hx y hy e => ?_⟩
    obtain ⟨t, k, ht, hn, h1, h2⟩ := h.2.2 x hx
    obtain ⟨t', k', ht', hn', h1', h2'⟩ := h'.2.2 y hy
    obtain ⟨e1, e2⟩ := defaultName_inj ht ht' (hn ▸ hn' ▸ e)
    subst e1 e2
    omega
  · intro n hn
    rcases List.mem_append.mp hn with hn | hn
    · obtain ⟨t, k, ht, hn, h1, h2⟩ := h.2.2 n hn
      exact ⟨t, k, ht, hn, h1, Nat.lt_of_lt_of_le h2 (h'.1 t)⟩
    · obtain ⟨t, k, ht, hn, h1, h2⟩ := h'.2.2 n hn
      exact ⟨t, k, ht, hn, Nat.le_trans (h.1 t) h1, h2⟩

theorem get_add (c : Counter) (t s : String) : (c.add t).get s = if s = t then c.get t + 1 else c.get s := by
  show (((t, c.get t + 1) :: c).lookup s).getD 0 = _
  by_cases h : s = t
  · subst h; rw [lookup_cons_self, if_pos rfl]; rfl
  · rw [lookup_cons_ne _ _ h, if_neg h]; rfl

theorem counted_one (c : Counter) (t : String) (ht : TypeName t) : Counted c (c.add t) [t ++ toString (c.get t)] := by
  refine ⟨fun s => ?_, by simp, ?_⟩
  · rw [get_add]; split
    · rename_i h; subst h; omega
    · exact Nat.le_refl _
  · intro n hn
    rw [List.mem_singleton] at hn
    exact ⟨t, c.get t, ht, hn, Nat.le_refl _, by rw [get_add, if_pos rfl]; omega⟩

mutual

theorem label_counted (s : Spec) (h : Unnamed s) (next : Nat) (c : Counter) : Counted c (label s next c).2.2 (topNames (label s next c).1) := by
  cases s with
  | layer type name kind inner =>
    obtain ⟨rfl, ht⟩ := h
    exact counted_one c type ht
  | block name layers =>
    cases h
    exact counted_one c "block" ⟨['b', 'l', 'o', 'c'], 'k', by decide, by decide⟩
  | list specs => exact labelAll_counted specs h next c

theorem labelAll_counted (ss : List Spec) (h : UnnamedAll ss) (next : Nat) (c : Counter) :
    Counted c (labelAll ss next c).2.2 (topNamesAll (labelAll ss next c).1) := by
  cases ss with
  | nil => exact ⟨fun _ => Nat.le_refl _, List.nodup_nil, by intro n hn; cases hn⟩
  | cons s ss => exact (label_counted s h.1 next c).append (labelAll_counted ss h.2 _ _)

end

theorem label_flat (s : Spec) (hs : s.isList = false) (before : List Spec) (next : Nat) (c : Counter)
    (hc : ∀ t, c.get t = before.countP fun s => s.unnamed = some t) :
    (label s next c).1.name = expectedName before s ∧
      ∀ t, (label s next c).2.2.get t = (before ++ [s]).countP fun s => s.unnamed = some t := by
  have hcount : ∀ t, (before ++ [s]).countP (fun s => s.unnamed = some t) = c.get t + if s.unnamed = some t then 1 else 0 := by
    intro t
    rw [List.countP_append, hc, List.countP_singleton]
    simp
  cases s with
  | list specs => cases hs
  | layer type name kind inner =>
    cases name with
    | some n => exact ⟨rfl, fun t => by rw [hcount]; exact (Nat.add_zero _).symm⟩
    | none =>
      refine ⟨by show type ++ toString (c.get type) = type ++ toString _; rw [hc], fun t => ?_⟩
      rw [hcount]
      show (c.add type).get t = c.get t + if some type = some t then 1 else 0
      rw [get_add]
      by_cases h : t = type
      · subst h; rw [if_pos rfl, if_pos rfl]
      · rw [if_neg h, if_neg fun e => h (by injection e with e; exact e.symm)]; rfl
  | block name layers =>
    cases name with
    | some n => exact ⟨rfl, fun t => by rw [hcount]; exact (Nat.add_zero _).symm⟩
    | none =>
      refine ⟨by show "block" ++ toString (c.get "block") = "block" ++ toString _; rw [hc], fun t => ?_⟩
      rw [hcount]
      show (c.add "block").get t = c.get t + if some "block" = some t then 1 else 0
      rw [get_add]
      by_cases h : t = "block"
      · subst h; rw [if_pos rfl, if_pos rfl]
      · rw [if_neg h, if_neg fun e => h (by injection e with e; exact e.symm)]; rfl

theorem labelAll_flat (ss : List Spec) (hs : ∀ s ∈ ss, s.isList = false) (before : List Spec) (next : Nat) (c : Counter)
    (hc : ∀ t, c.get t = before.countP fun s => s.unnamed = some t) (i : Nat) (s : Spec) (hi : ss[i]? = some s) :
    ∃ l, (labelAll ss next c).1[i]? = some l ∧ l.name = expectedName (before ++ ss.take i) s := by
  induction ss generalizing before next c i with
  | nil => cases hi
  | cons s' ss ih =>
    obtain ⟨h1, h2⟩ := label_flat s' (hs s' (List.mem_cons_self ..)) before next c hc
    cases i with
    | zero =>
      injection hi with hi
      subst hi
      exact ⟨_, rfl, by rw [h1, List.take_zero, List.append_nil]⟩
    | succ i =>
      obtain ⟨l, g1, g2⟩ := ih (fun s hs' => hs s (List.mem_cons_of_mem _ hs')) (before ++ [s']) _ _ h2 i hi
      exact ⟨l, g1, by rw [g2, List.take_succ_cons, List.append_assoc]; rfl⟩

mutual

theorem label_ids (s : Spec) (next : Nat) (c : Counter) :
    ∃ n, ids (label s next c).1 = List.range' next n ∧ (label s next c).2.1 = next + n := by
  cases s with
  | layer type name kind inner => exact ⟨1 + inner.length, rfl, Nat.add_assoc ..⟩
  | block name layers => exact labelAll_ids layers next []
  | list specs => exact labelAll_ids specs next c

theorem labelAll_ids (ss : List Spec) (next : Nat) (c : Counter) :
    ∃ n, idsAll (labelAll ss next c).1 = List.range' next n ∧ (labelAll ss next c).2.1 = next + n := by
  cases ss with
  | nil => exact ⟨0, rfl, rfl⟩
  | cons s ss =>
    obtain ⟨n, h1, h2⟩ := label_ids s next c
    obtain ⟨m, g1, g2⟩ := labelAll_ids ss (label s next c).2.1 (label s next c).2.2
    refine ⟨n + m, ?_, ?_⟩
    · show ids (label s next c).1 ++ idsAll (labelAll ss _ _).1 = _
      rw [h1, g1, h2, List.range'_append_1]
    · show (labelAll ss _ _).2.1 = _
      rw [g2, h2, Nat.add_assoc]

end

end Verif.Net
