import Verif.Memory.Run

/-! Episode structure of the log, and episode retrieval. -/

namespace Verif.Memory

variable {α : Type}

theorem splitEps_flatten (l : List (Step α)) : (splitEps l).1.flatten ++ (splitEps l).2 = l := by
  induction l with
  | nil => rfl
  | cons x r ih =>
    simp only [splitEps]
    split
    · simp [ih]
    · cases h : (splitEps r).1 with
      | nil => simp only [h] at ih ⊢; simpa using ih
      | cons e es => simp only [h] at ih ⊢; simpa using ih

theorem splitEps_unfinished (l : List (Step α)) : ∀ x ∈ (splitEps l).2, x.2 = 0 := by
  induction l with
  | nil => simp [splitEps]
  | cons x r ih =>
    simp only [splitEps]
    split
    · exact ih
    · rename_i hx
      cases h : (splitEps r).1 with
      | nil =>
        simp only [List.mem_cons, forall_eq_or_imp]
        exact ⟨by simpa using hx, ih⟩
      | cons e es => exact ih

theorem splitEps_episode (l : List (Step α)) : ∀ e ∈ (splitEps l).1,
    ∃ pre t, e = pre ++ [t] ∧ t.2 ≠ 0 ∧ ∀ x ∈ pre, x.2 = 0 := by
  induction l with
  | nil => simp [splitEps]
  | cons x r ih =>
    simp only [splitEps]
    split
    · rename_i hx
      intro e he
      rcases List.mem_cons.mp he with rfl | he
      · exact ⟨[], x, rfl, hx, by simp⟩
      · exact ih e he
    · rename_i hx
      cases h : (splitEps r).1 with
      | nil => simp
      | cons e es =>
        rw [h] at ih
        intro e' he'
        rcases List.mem_cons.mp he' with rfl | he'
        · obtain ⟨pre, t, e1, e2, e3⟩ := ih e List.mem_cons_self
          refine ⟨x :: pre, t, by simp [e1], e2, ?_⟩
          simp only [List.mem_cons, forall_eq_or_imp]
          exact ⟨by simpa using hx, e3⟩
        · exact ih e' (List.mem_cons_of_mem _ he')

theorem splitEps_zero (l : List (Step α)) (h : ∀ x ∈ l, x.2 = 0) : splitEps l = ([], l) := by
  induction l with
  | nil => rfl
  | cons x r ih =>
    have hx := h x List.mem_cons_self
    have := ih (fun y hy => h y (List.mem_cons_of_mem _ hy))
    simp [splitEps, this, hx]

theorem splitEps_end (A R : List (Step α)) (t : Step α) (ht : t.2 ≠ 0) :
    splitEps (A ++ t :: R) = ((splitEps (A ++ [t])).1 ++ (splitEps R).1, (splitEps R).2) := by
  induction A with
  | nil => simp [splitEps, ht]
  | cons x A ih =>
    have hne : (splitEps (A ++ [t])).1 ≠ [] := by
      clear ih
      induction A with
      | nil => simp [splitEps, ht]
      | cons y A ih2 =>
        simp only [List.cons_append, splitEps]
        split
        · simp
        · cases h : (splitEps (A ++ [t])).1 with
          | nil => exact absurd h ih2
          | cons e es => simp
    simp only [List.cons_append, splitEps, ih]
    split
    · rfl
    · cases h : (splitEps (A ++ [t])).1 with
      | nil => exact absurd h hne
      | cons e es => simp

theorem splitEps_concat_unfinished (A : List (Step α)) (t : Step α) (ht : t.2 ≠ 0) :
    (splitEps (A ++ [t])).2 = [] := by
  rw [splitEps_end A [] t ht]; rfl

theorem splitEps_single (A : List (Step α)) (t : Step α) (ht : t.2 ≠ 0) (hA : ∀ x ∈ A, x.2 = 0) :
    splitEps (A ++ [t]) = ([A ++ [t]], []) := by
  induction A with
  | nil => simp [splitEps, ht]
  | cons x A ih =>
    have := ih (fun y hy => hA y (List.mem_cons_of_mem _ hy))
    have hx := hA x List.mem_cons_self
    simp [splitEps, this, hx]

/-- Splitting off the first finished episode. -/
theorem splitEps_first (l : List (Step α)) (f : List (Step α)) (rest : List (List (Step α)))
    (h : (splitEps l).1 = f :: rest) :
    ∃ R, l = f ++ R ∧ splitEps R = (rest, (splitEps l).2) := by
  obtain ⟨pre, t, rfl, ht, hpre⟩ := splitEps_episode l f (by rw [h]; exact List.mem_cons_self)
  have hf := splitEps_flatten l
  rw [h] at hf
  refine ⟨rest.flatten ++ (splitEps l).2, by simpa using hf.symm, ?_⟩
  have e : l = pre ++ t :: (rest.flatten ++ (splitEps l).2) := by simpa using hf.symm
  have e2 := splitEps_end pre (rest.flatten ++ (splitEps l).2) t ht
  rw [← e, splitEps_single pre t ht hpre] at e2
  have h1 := congrArg Prod.fst e2
  have h2 := congrArg Prod.snd e2
  simp only at h1 h2
  rw [h] at h1
  ext1
  · simpa using h1.symm
  · exact h2.symm

theorem splitEps_length (l : List (Step α)) : (splitEps l).1.length = countNonzero (l.map Prod.snd) := by
  induction l with
  | nil => rfl
  | cons x r ih =>
    simp only [splitEps, List.map_cons]
    split
    · rename_i hx
      simp [countNonzero, hx] at ih ⊢
      exact ih
    · rename_i hx
      have hx : x.2 = 0 := by simpa using hx
      cases h : (splitEps r).1 with
      | nil => simp [h] at ih; simp [countNonzero, hx] at ih ⊢; exact ih
      | cons e es => simp [h] at ih; simp [countNonzero, hx] at ih ⊢; exact ih

/-- Slots of the ends of consecutive episodes of the given lengths. -/
def endSlots (cap : Nat) : Nat → List Nat → List Nat
  | _, [] => []
  | p, n :: r => (p + n - 1) % cap :: endSlots cap (p + n) r

theorem termSlots_zero (cap p : Nat) (l : List Nat) (h : ∀ x ∈ l, x = 0) : termSlots cap p l = [] := by
  induction l generalizing p with
  | nil => rfl
  | cons x r ih =>
    simp only [termSlots, h x List.mem_cons_self, if_true]
    exact ih _ (fun y hy => h y (List.mem_cons_of_mem _ hy))

theorem forall_map_snd {l : List (Step α)} (h : ∀ x ∈ l, x.2 = 0) : ∀ c ∈ l.map Prod.snd, c = 0 := by
  intro c hc
  obtain ⟨x, hx, rfl⟩ := List.mem_map.mp hc
  exact h x hx

theorem termSlots_eps (cap p : Nat) (es : List (List (Step α))) (u : List (Step α))
    (hes : ∀ e ∈ es, ∃ pre t, e = pre ++ [t] ∧ t.2 ≠ 0 ∧ ∀ x ∈ pre, x.2 = 0)
    (hu : ∀ x ∈ u, x.2 = 0) :
    termSlots cap p ((es.flatten ++ u).map Prod.snd) = endSlots cap p (es.map List.length) := by
  induction es generalizing p with
  | nil =>
    simp only [List.flatten_nil, List.nil_append, List.map_nil, endSlots]
    exact termSlots_zero _ _ _ (forall_map_snd hu)
  | cons e es ih =>
    obtain ⟨pre, t, rfl, ht, hpre⟩ := hes e List.mem_cons_self
    simp only [List.flatten_cons, List.append_assoc, List.map_append, List.map_cons, List.map_nil, endSlots]
    rw [termSlots_append, termSlots_zero _ _ _ (forall_map_snd hpre), termSlots_append]
    simp only [termSlots, ht, if_false, List.nil_append, List.singleton_append]
    have := ih (p + (pre.length + 1)) (fun e he => hes e (List.mem_cons_of_mem _ he))
    simp only [List.map_append] at this
    simp only [List.length_map, List.length_append, List.length_cons, List.length_nil]
    rw [show p + pre.length + (0 + 1) = p + (pre.length + 1) by omega, this]
    congr 2

theorem endSlots_get (cap : Nat) (ns : List Nat) (p a : Nat) (ha : a < ns.length) :
    (endSlots cap p ns)[a]? = some ((p + (ns.take (a + 1)).sum - 1) % cap) := by
  induction ns generalizing p a with
  | nil => simp at ha
  | cons n r ih =>
    cases a with
    | zero => simp [endSlots]
    | succ a =>
      simp only [endSlots, List.getElem?_cons_succ, List.take_succ_cons, List.sum_cons]
      rw [ih _ _ (by simpa using ha), Nat.add_assoc]

/-- Lengths of slot intervals: from the slot after position `x - 1` to the slot of position `y - 1`. -/
theorem slot_interval {cap p x y : Nat} (hx : 0 < x) (hxy : x ≤ y) (hlt : y < x + cap) :
    let s := (p + x - 1) % cap + 1
    let l := (p + y - 1) % cap + 1
    (l + (if l < s then cap else 0)) - s = y - x ∧ s % cap = (p + x) % cap := by
  have hc : 0 < cap := by omega
  simp only
  constructor
  · have e : p + y - 1 = (p + x - 1) + (y - x) := by omega
    rw [e]
    generalize p + x - 1 = a
    have hd : y - x < cap := by omega
    generalize y - x = d at hd
    have h1 := Nat.mod_lt a hc
    have h2 : (a + d) % cap = if a % cap + d < cap then a % cap + d else a % cap + d - cap := by
      rw [Nat.add_mod, Nat.mod_eq_of_lt hd]
      split
      · rename_i h; exact Nat.mod_eq_of_lt h
      · rename_i h
        rw [Nat.mod_eq_sub_mod (by omega), Nat.mod_eq_of_lt (by omega)]
    rw [h2]
    split <;> split <;> omega
  · have e : p + x = (p + x - 1) + 1 := by omega
    rw [e, Nat.add_sub_cancel, Nat.mod_add_mod]

theorem slots_mod (cap s n : Nat) : slots cap (s % cap) n = slots cap s n := by
  simp only [slots, rangeFrom, List.map_map]
  apply List.map_congr_left
  intro k _
  simp

theorem slots_congr {cap s s' : Nat} (n : Nat) (h : s % cap = s' % cap) : slots cap s n = slots cap s' n := by
  rw [← slots_mod, h, slots_mod]

theorem sum_take_le (ns : List Nat) (k : Nat) : (ns.take k).sum ≤ ns.sum := by
  conv => rhs; rw [← List.take_append_drop k ns, List.sum_append]
  omega

theorem sum_take_mono (ns : List Nat) {j k : Nat} (h : j ≤ k) : (ns.take j).sum ≤ (ns.take k).sum := by
  have : ns.take j = (ns.take k).take j := by rw [List.take_take, Nat.min_eq_left h]
  rw [this]; exact sum_take_le _ _

theorem flatten_take_length {β : Type} (es : List (List β)) (k : Nat) :
    (es.take k).flatten.length = ((es.map List.length).take k).sum := by
  rw [List.length_flatten, List.map_take]

/-- Reading the slots between two recorded episode ends yields exactly the episodes in between. -/
theorem Rep.episodeRange {m : Bool} {q : Queue α} {W : List (Step α)} (h : Rep m q W) (a b : Nat)
    (hab : a ≤ b) (hb : b < (splitEps W).1.length) :
    ∃ l, q.episodeRange a b = some l ∧
      q.retrieve l = some ((((splitEps W).1.take (b + 1)).drop (a + 1)).flatten.map Prod.fst) ∧
      gather q.term l = some ((((splitEps W).1.take (b + 1)).drop (a + 1)).flatten.map Prod.snd) := by
  have hes := splitEps_episode W
  have hu := splitEps_unfinished W
  have hfl := splitEps_flatten W
  generalize hE : (splitEps W).1 = es at *
  generalize hU : (splitEps W).2 = u at *
  have hti := h.tiEq
  rw [← hfl, termSlots_eps _ _ _ _ hes hu] at hti
  have hec : (q.ec + 1).toNat = es.length := by
    have := h.ecEq
    have h2 := splitEps_length W
    rw [hE] at h2
    omega
  rw [hec] at hti
  have get : ∀ k, k < es.length → q.ti[k]? = some ((q.bi + ((es.map List.length).take (k + 1)).sum - 1) % q.cap) := by
    intro k hk
    rw [← endSlots_get _ _ _ _ (by simpa using hk), ← hti, List.getElem?_take_of_lt hk]
  have hsum : (es.map List.length).sum ≤ q.cap := by
    have := congrArg List.length hfl
    rw [List.length_append, List.length_flatten, h.lenW] at this
    omega
  have hx0 : 0 < ((es.map List.length).take (a + 1)).sum := by
    cases hes' : es with
    | nil => rw [hes'] at hb; simp at hb
    | cons e r =>
      obtain ⟨pre, t, e1, _⟩ := hes e (by rw [hes']; exact List.mem_cons_self)
      simp [e1]; omega
  have hmono := sum_take_mono (es.map List.length) (show a + 1 ≤ b + 1 by omega)
  have hle := sum_take_le (es.map List.length) (b + 1)
  obtain ⟨i1, i2⟩ := slot_interval (cap := q.cap) (p := q.bi) hx0 hmono (by omega)
  have hW : W = (es.take (a + 1)).flatten ++ ((((es.take (b + 1)).drop (a + 1)).flatten) ++
      ((es.drop (b + 1)).flatten ++ u)) := by
    rw [← List.append_assoc, ← List.flatten_append]
    have : es.take (a + 1) ++ (es.take (b + 1)).drop (a + 1) = es.take (b + 1) := by
      have := List.take_append_drop (a + 1) (es.take (b + 1))
      rwa [List.take_take, Nat.min_eq_left (by omega)] at this
    rw [this, ← List.append_assoc, ← List.flatten_append, List.take_append_drop, hfl]
  have hlen : ((es.map List.length).take (b + 1)).sum - ((es.map List.length).take (a + 1)).sum =
      (((es.take (b + 1)).drop (a + 1)).flatten).length := by
    have e1 := flatten_take_length es (b + 1)
    have e2 := flatten_take_length es (a + 1)
    have : es.take (b + 1) = es.take (a + 1) ++ (es.take (b + 1)).drop (a + 1) := by
      have := List.take_append_drop (a + 1) (es.take (b + 1))
      rwa [List.take_take, Nat.min_eq_left (by omega), eq_comm] at this
    rw [this, List.flatten_append, List.length_append] at e1
    omega
  unfold Queue.episodeRange
  rw [get a (by omega), get b hb]
  simp only
  refine ⟨_, rfl, ?_, ?_⟩
  · rw [i1, slots_congr _ i2, hlen]
    have hag := h.vals
    rw [hW] at hag
    have := (hag.drop (es.take (a + 1)).flatten.length)
    rw [List.map_append, List.drop_left' (List.length_map _), List.map_append] at this
    have := gather_slots this.left
    rw [List.length_map, flatten_take_length] at this
    exact this
  · rw [i1, slots_congr _ i2, hlen]
    -- the write-head marker is not inside the range
    have hag := h.term
    have hst : ∃ tl, storedCodes m (W.map Prod.snd) =
        ((es.take (a + 1)).flatten.map Prod.snd) ++ ((((es.take (b + 1)).drop (a + 1)).flatten).map Prod.snd ++ tl) := by
      rw [hW, List.map_append, List.map_append, ← List.append_assoc]
      generalize hT : List.map Prod.snd ((es.drop (b + 1)).flatten ++ u) = T
      cases m with
      | false => exact ⟨T, by simp only [storedCodes, Bool.false_eq_true, if_false, List.append_assoc]⟩
      | true =>
      simp only [storedCodes, if_true]
      by_cases hTn : T = []
      · subst hTn
        rw [List.append_nil]
        refine ⟨[], ?_⟩
        rw [List.append_nil]
        -- the last code is an episode end
        have hne := h.ne_nil
        have hend : (es.drop (b + 1)).flatten ++ u = [] := List.map_eq_nil_iff.mp hT
        have hW2 : W = (es.take (b + 1)).flatten := by
          have := hfl
          rw [← List.take_append_drop (b + 1) es, List.flatten_append, List.append_assoc, hend] at this
          simpa using this.symm
        have hbl : b < es.length := hb
        have hsplit : es.take (b + 1) = es.take b ++ [es[b]] := by
          rw [List.take_add_one, List.getElem?_eq_getElem hbl]; rfl
        obtain ⟨pre, t, e1, e2, _⟩ := hes es[b] (List.getElem_mem hbl)
        have hcodes : (es.take (a + 1)).flatten.map Prod.snd ++
            (((es.take (b + 1)).drop (a + 1)).flatten).map Prod.snd =
            (((es.take b).flatten ++ pre).map Prod.snd) ++ [t.2] := by
          rw [← List.map_append, ← List.flatten_append]
          have : es.take (a + 1) ++ (es.take (b + 1)).drop (a + 1) = es.take (b + 1) := by
            have := List.take_append_drop (a + 1) (es.take (b + 1))
            rwa [List.take_take, Nat.min_eq_left (by omega)] at this
          rw [this, hsplit, List.flatten_append, List.flatten_singleton, e1]
          simp
        rw [hcodes]
        simp [markLast, e2]
      · exact ⟨markLast T, by rw [markLast_append _ _ hTn, List.append_assoc]⟩
    obtain ⟨tl, hst⟩ := hst
    rw [hst] at hag
    have := (hag.drop (es.take (a + 1)).flatten.length)
    rw [List.drop_left' (List.length_map _)] at this
    have := gather_slots this.left
    rw [List.length_map, flatten_take_length] at this
    exact this

theorem fitNewest_append {β : Type} (A B : List (List β)) (b : Nat) (h : (A.map List.length).sum ≤ b) :
    fitNewest b (A ++ B) = A ++ fitNewest (b - (A.map List.length).sum) B := by
  induction A generalizing b with
  | nil => simp
  | cons e A ih =>
    simp at h
    simp only [List.cons_append, fitNewest]
    rw [if_pos (by omega), ih _ (by omega)]
    simp only [List.cons_append, List.map_cons, List.sum_cons]
    rw [Nat.sub_sub]

theorem fitNewest_cons_gt {β : Type} (e : List β) (r : List (List β)) (b : Nat) (h : b < e.length) :
    fitNewest b (e :: r) = [] := by
  simp only [fitNewest]; rw [if_neg (by omega)]

theorem retrievable_all (cap : Nat) (items : List (Step α)) (h : items.length ≤ cap - 1) :
    retrievable cap items = episodes items := by
  have hfl := congrArg List.length (splitEps_flatten items)
  rw [List.length_append, List.length_flatten] at hfl
  unfold retrievable
  have := fitNewest_append (episodes items).reverse [] (cap - 1 - (unfinished items).length) (by
    rw [List.map_reverse, List.sum_reverse]; simp only [episodes, unfinished]; omega)
  rw [List.append_nil] at this
  rw [this]; simp [fitNewest]

/-- The retrievable episodes are the window's chunks without the first one. -/
theorem retrievable_window {cap : Nat} (hc : 0 < cap) (z : α) (items : List (Step α)) :
    retrievable cap items = (episodes (window cap z items)).tail := by
  by_cases hlt : items.length < cap
  · rw [retrievable_all _ _ (by omega), window_eq hc]
    have hst : stored cap items = items := by
      unfold stored; rw [show items.length - cap = 0 by omega]; rfl
    have hini : (initW cap z).drop items.length = List.replicate (cap - 1 - items.length) (z, 0) ++ [(z, 1)] := by
      unfold initW
      rw [List.drop_append_of_le_length (by simp; omega), List.drop_replicate]
    rw [hst, hini, List.append_assoc]
    unfold episodes
    rw [List.singleton_append, splitEps_end _ _ _ (by simp), splitEps_single _ _ (by simp) (by
      intro x hx; simp [List.mem_replicate] at hx; simp [hx.2])]
    simp
  · have hst : window cap z items = stored cap items := by
      rw [window_eq hc, List.drop_eq_nil_of_le (by rw [initW_length hc]; omega)]; rfl
    rw [hst]
    have hlen : (stored cap items).length = cap := by unfold stored; simp; omega
    have hit : items = items.take (items.length - cap) ++ stored cap items := by
      unfold stored; rw [List.take_append_drop]
    generalize hO : items.take (items.length - cap) = O at hit
    generalize stored cap items = W at *
    clear hst hlt hO
    subst hit
    cases hE : (splitEps W).1 with
    | nil =>
      -- no episode end stored at all
      have hu : (splitEps W).2 = W := by
        have := splitEps_flatten W; rw [hE] at this; simpa using this
      have hbig : cap ≤ (unfinished (O ++ W)).length := by
        have hz := splitEps_unfinished W
        rw [hu] at hz
        clear hE hu
        induction O with
        | nil => simp only [List.nil_append, unfinished, splitEps_zero W hz, hlen]; omega
        | cons x O ih =>
          simp only [unfinished, List.cons_append, splitEps] at ih ⊢
          split
          · exact ih
          · cases (splitEps (O ++ W)).1 with
            | nil => simp only [List.length_cons]; omega
            | cons e es => exact ih
      unfold retrievable
      rw [show cap - 1 - (unfinished (O ++ W)).length = 0 by omega]
      simp only [episodes, hE, List.tail_nil, List.reverse_eq_nil_iff]
      cases hR : (splitEps (O ++ W)).1.reverse with
      | nil => rfl
      | cons e r =>
        obtain ⟨pre, t, rfl, _⟩ := splitEps_episode (O ++ W) e (by
          have : e ∈ (splitEps (O ++ W)).1.reverse := by rw [hR]; exact List.mem_cons_self
          simpa using this)
        exact fitNewest_cons_gt _ _ _ (by simp)
    | cons f rest =>
      obtain ⟨R, hW, hR⟩ := splitEps_first W f rest hE
      obtain ⟨pre, t, rfl, ht, hpre⟩ := splitEps_episode W f (by rw [hE]; exact List.mem_cons_self)
      have hsp := splitEps_end (O ++ pre) R t ht
      have hOW : O ++ W = (O ++ pre) ++ t :: R := by rw [hW]; simp
      rw [← hOW, hR] at hsp
      simp only at hsp
      have hfl := congrArg List.length (splitEps_flatten R)
      rw [hR, List.length_append, List.length_flatten] at hfl
      simp only at hfl
      have hlen2 := congrArg List.length hW
      simp at hlen2
      unfold retrievable
      simp only [episodes, unfinished, hE, List.tail_cons]
      rw [hsp]
      simp only [List.reverse_append]
      rw [fitNewest_append _ _ _ (by rw [List.map_reverse, List.sum_reverse]; omega), List.map_reverse, List.sum_reverse]
      -- the chunk ending with `t` is too long
      have hlast : ∃ es' e, (splitEps ((O ++ pre) ++ [t])).1 = es' ++ [e] ∧ pre.length + 1 ≤ e.length := by
        clear hsp hOW hE hW hlen2
        induction O with
        | nil => exact ⟨[], pre ++ [t], by rw [List.nil_append, splitEps_single pre t ht hpre]; simp, by simp⟩
        | cons x O ih =>
          obtain ⟨es', e, h1, h2⟩ := ih
          simp only [List.cons_append, splitEps, h1]
          split
          · exact ⟨[x] :: es', e, rfl, h2⟩
          · cases es' with
            | nil => exact ⟨[], x :: e, rfl, by simp; omega⟩
            | cons e' es'' => exact ⟨(x :: e') :: es'', e, rfl, h2⟩
      obtain ⟨es', e, h1, h2⟩ := hlast
      rw [h1, List.reverse_concat, fitNewest_cons_gt _ _ _ (by omega)]
      simp

end Verif.Memory
