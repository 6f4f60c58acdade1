import Verif.Act.Spec
import Verif.Feed.MaskLemmas

/-!
# `Agent.act`: lemmas
-/

namespace Verif.Act

open Verif.Feed

/-- What a form means for the inputs. -/
def Form.batched : Form → Bool
  | .single => false
  | _ => true

def Form.iter : Form → Option Bool
  | .single => none
  | .rows => some true
  | .columns => some false

/-- Arrays with given rows are the stacked rows. -/
theorem columns_stacked {arrays d : Dict} {ds : List Dict} (h : SameForm d ds) (hc : Columns arrays d ds) :
    arrays = d.map (fun e => (e.1, stacked ds e)) := by
  obtain ⟨hnames, hrep⟩ := hc
  have hcol : ∀ e ∈ d, ∀ x, (e.1, x) ∈ arrays → x = stacked ds e := by
    intro e he x hx
    have h1 := stacked_represents h he
    have h2 := represents_unique (hrep e he x hx) (List.cons_ne_nil _ _) h1.2.1
    rw [h2, List.length_cons, h1.2.2]
    rfl
  clear hrep h
  induction arrays generalizing d with
  | nil => cases d with
    | nil => rfl
    | cons => exact absurd hnames nofun
  | cons a r ih => cases d with
    | nil => exact absurd hnames nofun
    | cons b t =>
      have hn := List.cons.inj hnames
      obtain ⟨ak, ax⟩ := a
      have hak : ak = b.1 := hn.1
      subst hak
      have := hcol b List.mem_cons_self ax List.mem_cons_self
      rw [List.map_cons, this, ← ih hn.2 (fun e he x hx => hcol e (List.mem_cons_of_mem _ he) x (List.mem_cons_of_mem _ hx))]

theorem stacked_nil (e : String × Nd) : stacked [] e = expand e.2 := by
  show (⟨_, e.2.data ++ []⟩ : Nd) = _
  rw [List.append_nil]
  rfl

/-- The number of rows of stacked values. -/
theorem stacked_rows {n : Nat} {arrays d : Dict} {ds : List Dict} (h : arrays = d.map (fun e => (e.1, stacked ds e)))
    (hr : ∀ e ∈ arrays, e.2.shape.head? = some n) (hne : arrays ≠ []) : n = ds.length + 1 := by
  cases d with
  | nil => rw [h] at hne; exact absurd rfl hne
  | cons e r =>
    have := hr (e.1, stacked ds e) (by rw [h]; exact List.mem_cons_self)
    exact (Option.some.inj this).symm

theorem dictOf_rows {spec : Spec} {n : Nat} {states masks : Flat} (hm : Match n spec.states states) (hg : GivenMasks spec n masks) :
    ∀ p ∈ dictOf states masks, p.2.shape.head? = some n := by
  intro p hp
  rcases List.mem_append.1 hp with h | h
  · obtain ⟨q, hq, hqp⟩ := List.mem_map.1 h
    rw [← hqp]
    exact match_rows hm q hq
  · obtain ⟨q, hq, hqp⟩ := List.mem_map.1 h
    obtain ⟨e, m, _, _, hsh, _⟩ := hg.2 q hq
    rw [← hqp]
    dsimp only
    rw [hsh]
    rfl

/-- The first state in the dictionary of states and masks. -/
theorem dictOf_first {spec : Spec} {n : Nat} {states masks : Flat} (hs : Separable spec) (hm : Match n spec.states states) :
    ∃ name e x, FirstState spec.states name e ∧ valueOf name (dictOf states masks) = some x ∧ x.shape = n :: e.shape := by
  cases hsp : spec.states with
  | nil =>
    rcases hs.states with ⟨e, he⟩ | ⟨hne, _⟩
    · rw [hsp] at he; exact absurd he nofun
    · exact absurd hsp hne
  | cons ke r =>
    obtain ⟨k, e⟩ := ke
    rw [hsp] at hm
    cases hm with
    | @cons _ _ x _ f hsx hp hv hr =>
      exact ⟨k.getD "state", e, x, ⟨k, r, rfl, rfl⟩, by unfold valueOf dictOf; simp, hsx⟩

/-- The states are processed to arrays, and states and masks are separated. -/
theorem processed {spec : Spec} {n : Nat} {states masks : Flat} {s : StatesIn} {form : Form} (hs : Separable spec)
    (hm : Match n spec.states states) (hg : GivenMasks spec n masks) (hgiven : Given n states masks s form) :
    ∃ f st, processStates spec.states s = .ok ⟨f, form.batched, n, form.iter⟩ ∧
      popMasks n spec.actions f = (masksOf n masks spec.actions, st) ∧ dropName spec.states st = .ok states := by
  have hsep := states_separated hs hm hg
  obtain ⟨st, hst⟩ := hsep
  have harray : ∀ x, states = [(none, x)] → masks = [] → ∃ e, spec.states = [(none, e)] ∧ x.shape = n :: e.shape ∧
      popMasks n spec.actions [(none, x)] = (masksOf n masks spec.actions, [(none, x)]) ∧ dropName spec.states [(none, x)] = .ok states := by
    intro x hx hmk
    subst hx hmk
    rcases hs.states with ⟨e, he⟩ | ⟨_, hnamed, _⟩
    · refine ⟨e, he, ?_, ?_, ?_⟩
      · rw [he] at hm
        obtain ⟨y, hy, hsy⟩ := match_single hm
        rw [(Prod.mk.inj (List.cons.inj hy).1).2]
        exact hsy
      · have := popMasks_given n [(none, x)] spec.actions [] (names_nodup hs.actions)
          (by intro e _ _ p hp; rw [List.mem_singleton.1 hp]; exact nofun) nofun nofun
        exact this
      · rw [he]; rfl
    · exact absurd rfl (match_named hm hnamed (none, x) List.mem_cons_self)
  have hne : dictOf states masks ≠ [] := by
    obtain ⟨name, e, x, _, hx, _⟩ := dictOf_first (masks := masks) hs hm
    intro h0
    rw [h0] at hx
    exact absurd hx nofun
  cases hgiven with
  | columns hn => exact ⟨_, st, states_processed hs hm hn hg, hst⟩
  | @rows d ds hsame hcol =>
    have harr := columns_stacked hsame hcol
    have hn := stacked_rows harr (dictOf_rows hm hg) hne
    refine ⟨keyed (dictOf states masks), st, ?_, hst⟩
    rw [processStates_list _ hsame, harr, hn]
    unfold keyed
    rw [List.map_map]
    rfl
  | @single d hsame hcol =>
    have harr := columns_stacked hsame hcol
    have hn : n = 1 := stacked_rows harr (dictOf_rows hm hg) hne
    have hex : dictOf states masks = d.map (fun e => (e.1, expand e.2)) := by
      rw [harr]
      apply map_congr'
      intro e _
      rw [stacked_nil]
    obtain ⟨name, e, x, ⟨k, r, hk, hname⟩, hx, hsx⟩ := dictOf_first (masks := masks) hs hm
    have hd : ∃ y, valueOf name d = some y ∧ y.shape = e.shape := by
      cases hv : valueOf name d with
      | none =>
        rw [hex] at hx
        have hmem := valueOf_some_mem hx
        obtain ⟨q, hq, hqe⟩ := List.mem_map.1 hmem
        have h1 := valueOf_mem hsame.1 q hq
        rw [(Prod.mk.inj hqe).1, hv] at h1
        exact absurd h1 nofun
      | some y =>
        refine ⟨y, rfl, ?_⟩
        have h1 := valueOf_map (fun e => expand e.2) hv
        rw [hex, h1] at hx
        rw [← Option.some.inj hx] at hsx
        exact (List.cons.inj hsx).2
    obtain ⟨y, hy, hys⟩ := hd
    refine ⟨keyed (dictOf states masks), st, ?_, hst⟩
    have hf : processForm spec.states (.dict d) = processDict name e d := by
      rw [hk, hname]; rfl
    unfold processStates
    rw [hf, processDict, lookup_eq, hy]
    dsimp only
    rw [if_pos hys, bind_ok]
    dsimp only
    rw [← hex, checkRows_ok]
    · rw [hn]; rfl
    · intro p hp
      obtain ⟨a, ha, hap⟩ := List.mem_map.1 hp
      rw [← hap, ← hn]
      exact dictOf_rows hm hg a ha
  | @array x hx hmk =>
    obtain ⟨e, he, hsx, h1, h2⟩ := harray x hx hmk
    refine ⟨_, _, ?_, h1, h2⟩
    rw [he]
    exact (Verif.Props.Forms.array_form e x).1 n hsx
  | @one x y hx hmk hrep =>
    obtain ⟨e, he, hsx, h1, h2⟩ := harray x hx hmk
    have hn : n = 1 := by
      have := hrep.2.1
      rw [hsx] at this
      exact Option.some.inj this
    have hrow := hrep.2.2 0 Nat.one_pos
    have hys : y.shape = e.shape := by
      show ([y][0]).shape = _
      rw [← hrow]
      show x.shape.tail = _
      rw [hsx]
      rfl
    have hxy : x = expand y := by
      have := represents_unique (s := y.shape) hrep (List.cons_ne_nil _ _) (by intro r hr; rw [List.mem_singleton.1 hr])
      rw [this, List.flatMap_cons, List.flatMap_nil, List.append_nil]
      rfl
    refine ⟨_, _, ?_, h1, h2⟩
    rw [he]
    show (do let inp ← processArray e y; checkRows inp.num inp.states; pure inp) = _
    rw [processArray, if_pos hys, hxy, hn]
    rfl

end Verif.Act
