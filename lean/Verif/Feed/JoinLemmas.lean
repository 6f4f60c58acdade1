import Verif.Feed.SplitLemmas

/-!
# Feeding experience: lemmas on covered traces and concatenation of traces
-/

namespace Verif.Feed

theorem column_slices {part : Batch → Flat} {k : Key} {x : Nd} {p : Batch} {bs : List (Nat × Nat)}
    (hpart : ∀ q ∈ bs, valueOf k (part (cut q.1 q.2 p)) = some (slice q.1 q.2 x)) :
    column part k (bs.map (fun q => cut q.1 q.2 p)) = bs.map (fun q => slice q.1 q.2 x) := by
  induction bs with
  | nil => rfl
  | cons q r ih =>
    unfold column at ih ⊢
    rw [List.map_cons, List.filterMap_cons_some (f := fun b => valueOf k (part b)) (hpart q List.mem_cons_self), ih (fun q hq => hpart q (List.mem_cons_of_mem _ hq)), List.map_cons]

theorem valueOf_slices {f : Flat} (a b : Nat) (hn : (f.map Prod.fst).Nodup) {k : Key} {x : Nd} (h : (k, x) ∈ f) :
    valueOf k (sliceAll a b f) = some (slice a b x) :=
  valueOf_map (fun e : Key × Nd => slice a b e.2) (valueOf_mem hn (k, x) h)

theorem take_length {α : Type} {l : List α} {a b : Nat} (h : b ≤ l.length) : ((l.drop a).take (b - a)).length = b - a := by
  rw [List.length_take, List.length_drop]
  omega

theorem map_congr' {α β : Type} {f g : α → β} : ∀ {l : List α}, (∀ a ∈ l, f a = g a) → l.map f = l.map g
  | [], _ => rfl
  | a :: r, h => by rw [List.map_cons, List.map_cons, h a List.mem_cons_self, map_congr' (fun b hb => h b (List.mem_cons_of_mem _ hb))]

theorem slice_repeat (n a b : Nat) (x : Nd) (hx : Proper x) (hb : b ≤ n) (hab : a < b) :
    Represents (slice a b (repeatRows n x)) (List.replicate (b - a) x) := by
  have hdata : (slice a b (repeatRows n x)).data = (List.replicate (b - a) x).flatMap Nd.data := by
    show ((List.replicate n x.data).flatten.drop (a * size x.shape)).take ((b - a) * size x.shape) = _
    have hl : size x.shape = x.data.length := by rw [size_eq]; exact hx.symm
    have hn : n = a + ((b - a) + (n - b)) := by omega
    have e1 : (List.replicate n x.data).flatten = (List.replicate a x.data).flatten ++
        ((List.replicate (b - a) x.data).flatten ++ (List.replicate (n - b) x.data).flatten) := by
      conv => lhs; rw [hn]
      rw [← List.replicate_append_replicate, ← List.replicate_append_replicate, List.flatten_append, List.flatten_append]
    rw [e1, hl, ← flatten_replicate_length a, List.drop_left, ← flatten_replicate_length (b - a), List.take_left]
    clear e1 hn hab hb
    induction (b - a) with
    | zero => rfl
    | succ m ih => rw [List.replicate_succ, List.replicate_succ, List.flatten_cons, List.flatMap_cons, ih]
  have := represents_stack x.shape (List.replicate (b - a) x)
    (fun r hr => by rw [(List.mem_replicate.1 hr).2]) (fun r hr => by rw [(List.mem_replicate.1 hr).2]; exact hx)
  rw [← hdata, List.length_replicate] at this
  exact this

theorem glued_slices {n : Nat} {x : Nd} {s : List Nat} {ts : List Nat} (hx : x.shape = n :: s) (hp : Proper x) (hlen : ts.length = n)
    (hlast : ∀ v, ts.getLast? = some v → v ≠ 0) (hn : n ≠ 0) :
    Glued s x.data ((bounds 0 0 ts).map (fun q => q.2 - q.1)) ((bounds 0 0 ts).map (fun q => slice q.1 q.2 x)) := by
  have htail : x.shape.tail = s := by rw [hx]; rfl
  constructor
  · rw [List.map_map, List.map_map]
    apply map_congr'
    intro q _
    show (q.2 - q.1) :: x.shape.tail = (q.2 - q.1) :: s
    rw [htail]
  · rw [List.flatMap_map]
    have := bounds_pieces (size s) x.data ts 0 0 (Nat.le_refl 0) (by
      rw [Nat.zero_add, hlen, size_eq]
      have : x.data.length = count x.shape := hp
      rw [this, hx]; rfl) hlast (fun _ => rfl)
    rw [Nat.zero_mul, List.drop_zero] at this
    refine Eq.trans ?_ this
    congr 1
    funext q
    show (x.data.drop (q.1 * size x.shape.tail)).take ((q.2 - q.1) * size x.shape.tail) = _
    rw [htail]

/-- The values of a name. -/
def dataOf (k : Key) (f : Flat) : List Rat := ((valueOf k f).map Nd.data).getD []

theorem covers_all {spec : Spec} {t : Trace} {n : Nat} (hst : Names spec.states) (hac : Names spec.actions)
    (ht : Fits spec t n) (masks int : Flat)
    (hint : ∀ e ∈ spec.internals, ∀ a b, a < b → b ≤ n →
      ∃ x, valueOf (some e.1) (sliceAll a b int) = some x ∧ Represents x (List.replicate (b - a) e.2)) :
    Covers spec ((bounds 0 0 t.terminal).map (fun q => cut q.1 q.2 ⟨t.states, int, masks, t.actions, t.terminal, t.reward⟩)) [t] := by
  obtain ⟨hn, hlast⟩ := fits_last ht
  have hrange : ∀ q ∈ bounds 0 0 t.terminal, q.1 < q.2 ∧ q.2 ≤ n := by
    intro q hq
    have := bounds_range t.terminal 0 0 (Nat.le_refl 0) q hq
    rw [Nat.zero_add, ht.terminal] at this
    exact this
  have hlens : ((bounds 0 0 t.terminal).map (fun q => cut q.1 q.2 ⟨t.states, int, masks, t.actions, t.terminal, t.reward⟩)).map (fun b => b.terminal.length) =
      (bounds 0 0 t.terminal).map (fun q => q.2 - q.1) := by
    rw [List.map_map]
    apply map_congr'
    intro q hq
    exact take_length (by show q.2 ≤ t.terminal.length; rw [ht.terminal]; exact (hrange q hq).2)
  have hsn : (t.states.map Prod.fst).Nodup := by rw [match_names ht.states]; exact names_nodup hst
  have han : (t.actions.map Prod.fst).Nodup := by
    rw [match_names ht.actions, List.map_map]; exact names_nodup hac
  have hpieces : ∀ {α : Type} (l : List α), l.length = n →
      (bounds 0 0 t.terminal).flatMap (fun q => (l.drop q.1).take (q.2 - q.1)) = l := by
    intro α l hl
    have := bounds_pieces 1 l t.terminal 0 0 (Nat.le_refl 0) (by rw [Nat.zero_add, Nat.mul_one, hl, ht.terminal]) hlast (fun _ => rfl)
    simp only [Nat.mul_one, List.drop_zero] at this
    exact this
  refine ⟨?_, ?_, ?_, ?_, ?_, ?_, ?_⟩
  · intro b hb
    obtain ⟨q, hq, hqb⟩ := List.mem_map.1 hb
    rw [← hqb]
    exact bounds_episode t.terminal t.terminal 0 0 (Nat.le_refl 0) rfl q hq
  · rw [List.flatMap_map, List.flatMap_singleton]
    exact hpieces t.terminal ht.terminal
  · rw [List.flatMap_map, List.flatMap_singleton]
    exact hpieces t.reward ht.reward
  · intro b hb
    obtain ⟨q, hq, hqb⟩ := List.mem_map.1 hb
    rw [← hqb]
    show ((t.reward.drop q.1).take (q.2 - q.1)).length = ((t.terminal.drop q.1).take (q.2 - q.1)).length
    rw [take_length (by rw [ht.reward]; exact (hrange q hq).2), take_length (by rw [ht.terminal]; exact (hrange q hq).2)]
  · intro e he
    obtain ⟨x, hx, hsh, hp⟩ := match_mem ht.states e he
    rw [List.flatMap_singleton, valueOf_mem hsn (e.1, x) hx, hlens,
      column_slices (x := x) (fun q _ => valueOf_slices q.1 q.2 hsn hx)]
    exact glued_slices hsh hp ht.terminal hlast hn
  · intro e he
    obtain ⟨x, hx, hsh, hp⟩ := match_mem ht.actions (e.1, e.2.ent) (List.mem_map.2 ⟨e, he, rfl⟩)
    rw [List.flatMap_singleton, valueOf_mem han (e.1, x) hx, hlens,
      column_slices (x := x) (fun q _ => valueOf_slices q.1 q.2 han hx)]
    exact glued_slices hsh hp ht.terminal hlast hn
  · intro e he b hb
    obtain ⟨q, hq, hqb⟩ := List.mem_map.1 hb
    have hlen : b.terminal.length = q.2 - q.1 := by
      rw [← hqb]
      exact take_length (by show q.2 ≤ t.terminal.length; rw [ht.terminal]; exact (hrange q hq).2)
    rw [hlen, ← hqb]
    exact hint e he q.1 q.2 (hrange q hq).1 (hrange q hq).2

theorem covers_masks {spec : Spec} {t : Trace} {n : Nat} (hst : Names spec.states) (hac : Names spec.actions)
    (hini : ∀ e ∈ spec.internals, Proper e.2) (hdis : (spec.internals.map Prod.fst).Nodup) (ht : Fits spec t n) (masks : Flat) :
    Covers spec ((bounds 0 0 t.terminal).map (fun q => cut q.1 q.2 { wholeOf spec t n with masks := masks })) [t] := by
  apply covers_all hst hac ht masks (wholeInternals n spec.internals)
  intro e he a b hab hb
  have hnod : ((wholeInternals n spec.internals).map Prod.fst).Nodup := by
    rw [match_names (match_internals n spec.internals hini)]
    exact internalEnts_nodup hdis
  exact ⟨slice a b (repeatRows n e.2), valueOf_slices a b hnod (List.mem_map.2 ⟨e, he, rfl⟩), slice_repeat n a b e.2 (hini e he) hb hab⟩

theorem covers_whole {spec : Spec} {t : Trace} {n : Nat} (hs : Sound spec) (ht : Fits spec t n) :
    Covers spec ((bounds 0 0 t.terminal).map (fun q => cut q.1 q.2 (wholeOf spec t n))) [t] :=
  covers_masks hs.states hs.actions hs.initial hs.distinct ht []

theorem experience_whole {spec : Spec} {t : Trace} {n : Nat} (hs : Sound spec) (ht : Fits spec t n) :
    experience spec false (argsOf t) = ((bounds 0 0 t.terminal).map (fun q => cut q.1 q.2 (wholeOf spec t n)), none) := by
  rw [experience, prepare_ok hs ht]
  dsimp only
  exact feed_ok (fun q _ => convert_cut hs ht q.1 q.2)

/-- Values of two flat dictionaries by name. -/
theorem joinFlat_ok {n m : Nat} {ents : List (Key × Ent)} {f g G : Flat} (hf : Match n ents f) (hg : Match m ents g)
    (hG : ∀ e ∈ g, valueOf e.1 G = some e.2) :
    ∃ h, joinFlat f G = .ok h ∧ Match (n + m) ents h ∧
      ∀ (hn : (ents.map Prod.fst).Nodup), ∀ e ∈ ents, dataOf e.1 h = dataOf e.1 f ++ dataOf e.1 g := by
  induction hf generalizing g with
  | nil => cases hg; exact ⟨[], rfl, .nil, fun _ => nofun⟩
  | @cons k e x r f hs hp hv hr ih =>
    cases hg with
    | @cons _ _ y _ g hs' hp' hv' hr' =>
      obtain ⟨h, hj, hm, hd⟩ := ih hr' (fun e he => hG e (List.mem_cons_of_mem _ he))
      refine ⟨(k, ⟨(n + m) :: e.shape, x.data ++ y.data⟩) :: h, ?_, ?_, ?_⟩
      · have hc : concatenate x y = .ok ⟨(n + m) :: e.shape, x.data ++ y.data⟩ := by
          unfold concatenate
          rw [hs, hs']
          dsimp only
          rw [if_pos rfl]
        unfold joinFlat at hj ⊢
        rw [List.mapM_cons]
        dsimp only
        rw [lookup_eq, hG (k, y) List.mem_cons_self, found, bind_ok, hc, bind_ok, hj]
        rfl
      · refine .cons rfl ?_ ?_ hm
        · show (x.data ++ y.data).length = (n + m) * count e.shape
          have h1 : x.data.length = count x.shape := hp
          have h2 : y.data.length = count y.shape := hp'
          rw [List.length_append, h1, h2, hs, hs', count_cons, count_cons, Nat.add_mul]
        · intro v hv''
          rcases List.mem_append.1 hv'' with h | h
          · exact hv v h
          · exact hv' v h
      · intro hn e' he'
        rw [List.map_cons, List.nodup_cons] at hn
        by_cases hk : k = e'.1
        · unfold dataOf valueOf
          rw [List.find?_cons, List.find?_cons, List.find?_cons, decide_eq_true hk]
          rfl
        · rcases List.mem_cons.1 he' with e'' | he'
          · exact absurd (by rw [e'']) hk
          · have := hd hn.2 e' he'
            unfold dataOf valueOf at this ⊢
            rw [List.find?_cons, List.find?_cons, List.find?_cons, decide_eq_false hk]
            exact this

/-- A trace has the values of several traces one after the other. -/
structure Joined (spec : Spec) (t : Trace) (ts : List Trace) : Prop where
  terminal : t.terminal = ts.flatMap Trace.terminal
  reward : t.reward = ts.flatMap Trace.reward
  states : ∀ e ∈ spec.states, dataOf e.1 t.states = ts.flatMap (fun t => dataOf e.1 t.states)
  actions : ∀ e ∈ spec.actions, dataOf e.1 t.actions = ts.flatMap (fun t => dataOf e.1 t.actions)

theorem join_ok {spec : Spec} (hs : Sound spec) {s t : Trace} {n m : Nat} (hf : Fits spec s n) (hg : Fits spec t m) {ts : List Trace}
    (hj : Joined spec s ts) : ∃ b, join s t = .ok b ∧ Fits spec b (n + m) ∧ Joined spec b (ts ++ [t]) := by
  have hsn : (t.states.map Prod.fst).Nodup := by rw [match_names hg.states]; exact names_nodup hs.states
  have hen : ((spec.actions.map (fun e => (e.1, e.2.ent))).map Prod.fst).Nodup := by rw [List.map_map]; exact names_nodup hs.actions
  have han : (t.actions.map Prod.fst).Nodup := by rw [match_names hg.actions]; exact hen
  obtain ⟨h1, hj1, hm1, hd1⟩ := joinFlat_ok hf.states hg.states (fun e he => valueOf_mem hsn e he)
  obtain ⟨h2, hj2, hm2, hd2⟩ := joinFlat_ok hf.actions hg.actions (fun e he => valueOf_mem han e he)
  refine ⟨⟨h1, h2, s.terminal ++ t.terminal, s.reward ++ t.reward, []⟩, ?_, ⟨hm1, hm2, ?_, ?_, ?_, rfl⟩, ⟨?_, ?_, ?_, ?_⟩⟩
  · rw [join, hj1, bind_ok, hj2, bind_ok, hf.masks]
    rfl
  · show (s.terminal ++ t.terminal).length = n + m
    rw [List.length_append, hf.terminal, hg.terminal]
  · show (s.reward ++ t.reward).length = n + m
    rw [List.length_append, hf.reward, hg.reward]
  · obtain ⟨l, v, hv, hl⟩ := hg.complete
    exact ⟨s.terminal ++ l, v, hv, by show s.terminal ++ t.terminal = _; rw [hl, List.append_assoc]⟩
  · show s.terminal ++ t.terminal = _
    rw [List.flatMap_append, List.flatMap_singleton, hj.terminal]
  · show s.reward ++ t.reward = _
    rw [List.flatMap_append, List.flatMap_singleton, hj.reward]
  · intro e he
    rw [List.flatMap_append, List.flatMap_singleton, ← hj.states e he]
    exact hd1 (names_nodup hs.states) e he
  · intro e he
    rw [List.flatMap_append, List.flatMap_singleton, ← hj.actions e he]
    exact hd2 hen (e.1, e.2.ent) (List.mem_map.2 ⟨e, he, rfl⟩)

theorem joinAll_some {spec : Spec} (hs : Sound spec) {files : List Trace} (hfiles : ∀ t ∈ files, ∃ n, Fits spec t n) :
    ∀ (sel : List Nat) {s : Trace} {n : Nat} {ts : List Trace}, Fits spec s n → Joined spec s ts → (∀ i ∈ sel, i < files.length) →
      ∃ b m, joinAll files (some s) sel = .ok (some b) ∧ Fits spec b m ∧ Joined spec b (ts ++ sel.filterMap (files[·]?))
  | [], s, n, ts, hf, hj, _ => ⟨s, n, rfl, hf, by rw [List.filterMap_nil, List.append_nil]; exact hj⟩
  | i :: r, s, n, ts, hf, hj, hi => by
    have hlt := hi i List.mem_cons_self
    have hget : files[i]? = some files[i] := List.getElem?_eq_getElem hlt
    obtain ⟨m, hm⟩ := hfiles files[i] (List.getElem_mem hlt)
    obtain ⟨b, hb, hbf, hbj⟩ := join_ok hs hf hm hj
    obtain ⟨c, k, hc, hcf, hcj⟩ := joinAll_some hs hfiles r hbf hbj (fun j hj => hi j (List.mem_cons_of_mem _ hj))
    refine ⟨c, k, ?_, hcf, ?_⟩
    · rw [joinAll, hget]
      dsimp only
      rw [hb, bind_ok, hc]
    · rw [List.filterMap_cons_some hget]
      rw [List.append_assoc] at hcj
      exact hcj

theorem joinAll_ok {spec : Spec} (hs : Sound spec) {files : List Trace} (hfiles : ∀ t ∈ files, ∃ n, Fits spec t n)
    {sel : List Nat} (hne : sel ≠ []) (hi : ∀ i ∈ sel, i < files.length) :
    ∃ b m, joinAll files none sel = .ok (some b) ∧ Fits spec b m ∧ Joined spec b (sel.filterMap (files[·]?)) := by
  cases sel with
  | nil => exact absurd rfl hne
  | cons i r =>
    have hlt := hi i List.mem_cons_self
    have hget : files[i]? = some files[i] := List.getElem?_eq_getElem hlt
    obtain ⟨m, hm⟩ := hfiles files[i] (List.getElem_mem hlt)
    have hj : Joined spec files[i] [files[i]] := by
      refine ⟨?_, ?_, ?_, ?_⟩
      · rw [List.flatMap_singleton]
      · rw [List.flatMap_singleton]
      · intro e _; rw [List.flatMap_singleton]
      · intro e _; rw [List.flatMap_singleton]
    obtain ⟨c, k, hc, hcf, hcj⟩ := joinAll_some hs hfiles r hm hj (fun j hj => hi j (List.mem_cons_of_mem _ hj))
    refine ⟨c, k, ?_, hcf, ?_⟩
    · rw [joinAll, hget]
      exact hc
    · rw [List.filterMap_cons_some hget]
      exact hcj

theorem statesArg_form {t : Trace} (h : t.masks = []) : statesArg t = .ok (statesForm t.states) := by
  unfold statesArg statesForm
  split
  · rename_i x hx
    rw [h, hx]; rfl
  · rename_i hx
    rw [h, List.map_nil, List.append_nil]
    split
    · rename_i y hy; exact absurd hy (hx y)
    · rfl

theorem actionsArg_form (t : Trace) : actionsArg t = actionsForm t.actions := by
  unfold actionsArg actionsForm
  split
  · rename_i x hx
    rw [hx]
  · rename_i hx
    split
    · rename_i y hy; exact absurd hy (hx y)
    · rfl

theorem covers_joined {spec : Spec} {fed : List Batch} {t : Trace} {ts : List Trace} (h : Covers spec fed [t]) (hj : Joined spec t ts) :
    Covers spec fed ts := by
  refine ⟨h.episodes, ?_, ?_, h.rewards, ?_, ?_, h.internals⟩
  · rw [h.terminal, List.flatMap_singleton, hj.terminal]
  · rw [h.reward, List.flatMap_singleton, hj.reward]
  · intro e he
    have := h.states e he
    rw [List.flatMap_singleton] at this
    have hd := hj.states e he
    unfold dataOf at hd
    rw [hd] at this
    exact this
  · intro e he
    have := h.actions e he
    rw [List.flatMap_singleton] at this
    have hd := hj.actions e he
    unfold dataOf at hd
    rw [hd] at this
    exact this

/-- One iteration of pretraining. -/
theorem iteration_ok {spec : Spec} (hs : Sound spec) {files : List Trace} (hfiles : ∀ t ∈ files, ∃ n, Fits spec t n)
    (numTraces : Option Nat) (numUpdates : Nat) {order : List Nat} (hne : select numTraces order ≠ [])
    (hi : ∀ i ∈ order, i < files.length) :
    ∃ fed, iteration spec files numTraces numUpdates order = (fed.map .fed ++ List.replicate numUpdates .update, none) ∧
      Covers spec fed ((select numTraces order).filterMap (files[·]?)) := by
  have hsel : ∀ i ∈ select numTraces order, i < files.length := by
    intro i h
    cases numTraces with
    | none => exact hi i h
    | some n => exact hi i (List.mem_of_mem_take h)
  obtain ⟨b, m, hb, hf, hj⟩ := joinAll_ok hs hfiles hne hsel
  refine ⟨_, ?_, covers_joined (covers_whole hs hf) hj⟩
  have he := experience_whole hs hf
  unfold argsOf at he
  rw [iteration, hb]
  dsimp only
  rw [statesArg_form hf.masks]
  dsimp only
  rw [actionsArg_form, he]

end Verif.Feed
