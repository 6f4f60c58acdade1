import Verif.Feed.Lemmas

/-!
# Forms of states (C113)

States may be given as a list of dictionaries, a dictionary of arrays, an array, or as a single time step.
-/

namespace Verif.Props.Forms

open Verif.Feed

/-- A list of dictionaries becomes a dictionary of arrays, whose rows are the states of the time steps. -/
theorem list_form (spec : List (Key × Ent)) (d : Dict) (ds : List Dict) (h : SameForm d ds) :
    ∃ inp, processStates spec (.list d (ds.map some)) = .ok inp ∧
      inp.batched = true ∧ inp.num = (d :: ds).length ∧ inp.iter = some true ∧
      inp.states.map Prod.fst = d.map (fun e => some e.1) ∧
      ∀ e ∈ d, ∃ x, (some e.1, x) ∈ inp.states ∧ Represents x (e.2 :: ds.filterMap (valueOf e.1)) := by
  refine ⟨_, processStates_list spec h, rfl, rfl, rfl, ?_, ?_⟩
  · rw [List.map_map]; rfl
  · intro e he
    exact ⟨stacked ds e, List.mem_map.2 ⟨e, he, rfl⟩, (stacked_represents h he).1⟩

/-- A dictionary of arrays is used as it is, if all arrays have the same number of rows. -/
theorem dict_form (spec : List (Key × Ent)) (d : Dict) (name : String) (e : Ent) (x : Nd) (n : Nat)
    (hspec : FirstState spec name e) (hx : valueOf name d = some x) (hs : x.shape = n :: e.shape) (hn : n ≠ 0)
    (hall : ∀ p ∈ d, p.2.shape.head? = some n) :
    processStates spec (.dict d) = .ok ⟨d.map (fun p => (some p.1, p.2)), true, n, some false⟩ := by
  obtain ⟨k, r, hk, hname⟩ := hspec
  have hf : processForm spec (.dict d) = processDict name e d := by
    subst hk hname
    rfl
  unfold processStates
  rw [hf, processDict, lookup_eq, hx]
  dsimp only
  rw [if_neg (by rw [hs]; exact cons_ne_tail _ _), if_pos (by rw [hs]; rfl), hs]
  dsimp only
  rw [if_neg hn, bind_ok]
  dsimp only
  rw [checkRows_ok]
  · rfl
  · intro p hp
    obtain ⟨a, ha, hap⟩ := List.mem_map.1 hp
    rw [← hap]
    exact hall a ha

/-- A single time step is a batch of one row. -/
theorem single_form (spec : List (Key × Ent)) (d : Dict) (name : String) (e : Ent) (x : Nd)
    (hspec : FirstState spec name e) (hx : valueOf name d = some x) (hs : x.shape = e.shape) (hp : ∀ p ∈ d, Proper p.2) :
    ∃ inp, processStates spec (.dict d) = .ok inp ∧ inp.batched = false ∧ inp.num = 1 ∧ inp.iter = none ∧
      inp.states.map Prod.fst = d.map (fun p => some p.1) ∧
      ∀ p ∈ d, ∃ y, (some p.1, y) ∈ inp.states ∧ Represents y [p.2] := by
  obtain ⟨k, r, hk, hname⟩ := hspec
  have hf : processForm spec (.dict d) = processDict name e d := by
    subst hk hname
    rfl
  refine ⟨⟨keyed (d.map (fun p => (p.1, expand p.2))), false, 1, none⟩, ?_, rfl, rfl, rfl, ?_, ?_⟩
  · unfold processStates
    rw [hf, processDict, lookup_eq, hx]
    dsimp only
    rw [if_pos hs, bind_ok]
    dsimp only
    rw [checkRows_ok]
    · rfl
    · intro p hp
      obtain ⟨a, ha, hap⟩ := List.mem_map.1 hp
      obtain ⟨b, _, hb⟩ := List.mem_map.1 ha
      rw [← hap, ← hb]
      rfl
  · unfold keyed
    rw [List.map_map, List.map_map]; rfl
  · intro p hpd
    refine ⟨expand p.2, List.mem_map.2 ⟨(p.1, expand p.2), List.mem_map.2 ⟨p, hpd, rfl⟩, rfl⟩, ?_⟩
    have := represents_stack p.2.shape [p.2] (by intro r hr; rw [List.mem_singleton.1 hr]) (by intro r hr; rw [List.mem_singleton.1 hr]; exact hp p hpd)
    rw [List.flatMap_cons, List.flatMap_nil, List.append_nil] at this
    exact this

/-- List of dictionaries and dictionary of arrays give the same states. -/
theorem forms_agree (spec : List (Key × Ent)) (d : Dict) (ds : List Dict) (arrays : Dict) (name : String) (e : Ent) (x : Nd)
    (h : SameForm d ds) (hc : Columns arrays d ds) (hspec : FirstState spec name e) (hx : valueOf name d = some x)
    (hs : x.shape = e.shape) :
    ∃ a b, processStates spec (.list d (ds.map some)) = .ok a ∧ processStates spec (.dict arrays) = .ok b ∧
      a.states = b.states ∧ a.num = b.num ∧ a.batched = true ∧ b.batched = true := by
  have harr : arrays = d.map (fun e => (e.1, stacked ds e)) := by
    obtain ⟨hnames, hrep⟩ := hc
    have hcol : ∀ e ∈ d, ∀ x, (e.1, x) ∈ arrays → x = stacked ds e := by
      intro e he x hx
      have h1 := stacked_represents h he
      have h2 := represents_unique (hrep e he x hx) (List.cons_ne_nil _ _) h1.2.1
      rw [h2, List.length_cons, h1.2.2]
      rfl
    clear hrep hx hs h
    induction arrays generalizing d with
    | nil => cases d with
      | nil => rfl
      | cons => exact absurd hnames nofun
    | cons a r ih => cases d with
      | nil => exact absurd hnames nofun
      | cons b t =>
        have hn := List.cons.inj hnames
        obtain ⟨ak, ax⟩ := a
        have hak : ak = b.1 := hn.1
        subst hak
        have := hcol b List.mem_cons_self ax List.mem_cons_self
        rw [List.map_cons, this, ← ih t hn.2 (fun e he x hx => hcol e (List.mem_cons_of_mem _ he) x (List.mem_cons_of_mem _ hx))]
  have hval : valueOf name arrays = some (stacked ds (name, x)) := by
    rw [harr]
    exact valueOf_map (stacked ds) hx
  have hdict := dict_form spec arrays name e (stacked ds (name, x)) (ds.length + 1) hspec hval
    (by show _ :: x.shape = _; rw [hs]) (Nat.succ_ne_zero _) (by
      intro p hp
      rw [harr] at hp
      obtain ⟨q, _, hq⟩ := List.mem_map.1 hp
      rw [← hq]
      rfl)
  refine ⟨_, _, processStates_list spec h, hdict, ?_, rfl, rfl, rfl⟩
  rw [harr, List.map_map]
  rfl

/-- A single unnamed state: an array with one more dimension is a batch, one of the shape of the state a time step. -/
theorem array_form (e : Ent) (x : Nd) :
    (∀ n, x.shape = n :: e.shape → processStates [(none, e)] (.array x) = .ok ⟨[(none, x)], true, n, some true⟩) ∧
    (x.shape = e.shape → Proper x → ∃ y, processStates [(none, e)] (.array x) = .ok ⟨[(none, y)], false, 1, none⟩ ∧ Represents y [x]) := by
  constructor
  · intro n hs
    show (do let inp ← processArray e x; checkRows inp.num inp.states; pure inp) = _
    rw [processArray, if_neg (by rw [hs]; exact cons_ne_tail _ _), if_pos (by rw [hs]; rfl), hs]
    dsimp only
    rw [bind_ok]
    dsimp only
    rw [checkRows_ok _ _ (by intro p hp; rw [List.mem_singleton.1 hp, hs]; rfl)]
    rfl
  · intro hs hp
    refine ⟨expand x, ?_, ?_⟩
    · show (do let inp ← processArray e x; checkRows inp.num inp.states; pure inp) = _
      rw [processArray, if_pos hs]
      rfl
    · have := represents_stack x.shape [x] (by intro r hr; rw [List.mem_singleton.1 hr]) (by intro r hr; rw [List.mem_singleton.1 hr]; exact hp)
      rw [List.flatMap_cons, List.flatMap_nil, List.append_nil] at this
      exact this

/-- Whatever is accepted has the same number of rows in every array. -/
theorem consistent (spec : List (Key × Ent)) (s : StatesIn) (inp : Input) (h : processStates spec s = .ok inp) :
    ∀ e ∈ inp.states, e.2.shape.head? = some inp.num := by
  unfold processStates at h
  cases hf : processForm spec s with
  | error e => rw [hf, bind_error] at h; exact absurd h nofun
  | ok i =>
    rw [hf, bind_ok] at h
    cases hc : checkRows i.num i.states with
    | error e => rw [hc, bind_error] at h; exact absurd h nofun
    | ok u =>
      rw [hc, bind_ok] at h
      have : i = inp := Except.ok.inj h
      subst this
      exact checkRows_all _ _ hc

/-- No time step at all is rejected, except for a single unnamed state given as an array. -/
theorem nonempty_partial (spec : List (Key × Ent)) (s : StatesIn) (inp : Input) (h : processStates spec s = .ok inp)
    (hs : ∀ x, s ≠ .array x) : inp.num ≠ 0 := by
  unfold processStates at h
  cases hf : processForm spec s with
  | error e => rw [hf, bind_error] at h; exact absurd h nofun
  | ok i =>
    rw [hf, bind_ok] at h
    cases hc : checkRows i.num i.states with
    | error e => rw [hc, bind_error] at h; exact absurd h nofun
    | ok u =>
      rw [hc, bind_ok] at h
      have : i = inp := Except.ok.inj h
      subst this
      unfold processForm at hf
      split at hf
      · exact absurd rfl (hs _)
      · split at hf <;> exact absurd hf nofun
      · unfold processList at hf
        rename_i first rest
        cases ha : allDicts rest with
        | error e => rw [ha, bind_error] at hf; exact absurd hf nofun
        | ok ds =>
          rw [ha, bind_ok] at hf
          cases hst : stackDicts first ds with
          | error e => rw [hst, bind_error] at hf; exact absurd hf nofun
          | ok st =>
            rw [hst, bind_ok] at hf
            rw [← Except.ok.inj hf]
            exact Nat.succ_ne_zero _
      · split at hf
        · unfold processDict at hf
          split at hf
          · exact absurd hf nofun
          · split at hf
            · rw [← Except.ok.inj hf]; exact Nat.one_ne_zero
            · split at hf
              · split at hf
                · exact absurd hf nofun
                · split at hf
                  · exact absurd hf nofun
                  · rename_i hn
                    rw [← Except.ok.inj hf]; exact hn
              · exact absurd hf nofun
        · exact absurd hf nofun

/-- An agent with two states. -/
def two : List (Key × Ent) := [(some "a", ⟨[], fun _ => true⟩), (some "b", ⟨[2], fun _ => true⟩)]

/-- Values of a later time step which the first one lacks are dropped silently. -/
theorem surplus_violation :
    processStates two (.list [("a", ⟨[], [1]⟩)] [some [("a", ⟨[], [2]⟩), ("b", ⟨[2], [3, 4]⟩)]]) =
      .ok ⟨[(some "a", ⟨[2], [1, 2]⟩)], true, 2, some true⟩ := by decide +kernel

/-- An array of no time step is accepted for a single unnamed state. -/
theorem empty_violation :
    processStates [(none, ⟨[2], fun _ => true⟩)] (.array ⟨[0, 2], []⟩) = .ok ⟨[(none, ⟨[0, 2], []⟩)], true, 0, some true⟩ := by
  decide +kernel

example : processStates two (.list [("a", ⟨[], [1]⟩), ("b", ⟨[2], [3, 4]⟩)] [some [("b", ⟨[2], [5, 6]⟩), ("a", ⟨[], [2]⟩)]]) =
    .ok ⟨[(some "a", ⟨[2], [1, 2]⟩), (some "b", ⟨[2, 2], [3, 4, 5, 6]⟩)], true, 2, some true⟩ := by decide +kernel

example : SameForm [("a", ⟨[], [1]⟩), ("b", ⟨[2], [3, 4]⟩)] [[("b", ⟨[2], [5, 6]⟩), ("a", ⟨[], [2]⟩)]] := by
  refine ⟨by decide, ?_, ?_⟩
  · intro e he
    rcases List.mem_cons.1 he with h | h
    · subst h; rfl
    · rw [List.mem_singleton.1 h]; rfl
  · intro e he d hd
    rw [List.mem_singleton.1 hd]
    rcases List.mem_cons.1 he with h | h
    · subst h; exact ⟨⟨[], [2]⟩, by decide +kernel, rfl, rfl⟩
    · rw [List.mem_singleton.1 h]; exact ⟨⟨[2], [5, 6]⟩, by decide +kernel, rfl, rfl⟩

example : processStates two (.dict [("a", ⟨[2], [1, 2]⟩), ("b", ⟨[2, 2], [3, 4, 5, 6]⟩)]) =
    .ok ⟨[(some "a", ⟨[2], [1, 2]⟩), (some "b", ⟨[2, 2], [3, 4, 5, 6]⟩)], true, 2, some false⟩ := by decide +kernel

example : processStates two (.dict [("a", ⟨[], [1]⟩), ("b", ⟨[2], [3, 4]⟩)]) =
    .ok ⟨[(some "a", ⟨[1], [1]⟩), (some "b", ⟨[1, 2], [3, 4]⟩)], false, 1, none⟩ := by decide +kernel

example : processStates two (.dict [("a", ⟨[2], [1, 2]⟩), ("b", ⟨[1, 2], [3, 4]⟩)]) = .error .value := by decide +kernel

end Verif.Props.Forms
