import Verif.Feed.ExtraLemmas

/-!
# Feeding experience (C114)

Every episode of the experience is passed to the model once, whole and in order.
-/

namespace Verif.Props.Experience

open Verif.Feed

/-- Experience of whole episodes is passed on completely, episode by episode; counters rise accordingly. -/
theorem fed_partial (spec : Spec) (t : Trace) (n : Nat) (hs : Sound spec) (ht : Fits spec t n) :
    ∃ fed, experience spec false (argsOf t) = (fed, none) ∧ Covers spec fed [t] ∧
      ∀ timesteps episodes, counters timesteps episodes fed = (timesteps + n, episodes + (t.terminal.filter (· ≠ 0)).length) := by
  refine ⟨_, experience_whole hs ht, covers_whole hs ht, fun timesteps episodes => ?_⟩
  have hc := covers_whole hs ht
  have hterm := hc.terminal
  rw [List.flatMap_singleton] at hterm
  have hcount := episodes_count _ hc.episodes
  rw [hterm] at hcount
  rw [counters_eq, hterm, ht.terminal, hcount]

/-- Whatever the arguments, and whether or not an error is raised: only whole episodes are passed on. -/
theorem whole_episodes (spec : Spec) (mid : Bool) (a : Args) : Episodes (experience spec mid a).1 := by
  intro b hb
  rcases experience_fed (spec := spec) (mid := mid) (a := a) with h | ⟨p, _, h⟩
  · rw [h] at hb; exact absurd hb List.not_mem_nil
  · rw [h] at hb
    obtain ⟨q, hq, hc⟩ := feed_mem b hb
    rw [(convert_inv hc).1]
    exact bounds_episode p.terminal p.terminal 0 0 (Nat.le_refl 0) rfl q hq

/-- Experience whose last time step is not terminal is rejected, and nothing is passed on. -/
theorem incomplete_rejected (spec : Spec) (mid : Bool) (a : Args)
    (h : (∃ l, a.terminal = .many (l ++ [0])) ∨ a.terminal = .one 0) : ∃ e, experience spec mid a = ([], some e) := by
  unfold experience
  cases hp : prepare spec mid a with
  | error e => exact ⟨e, rfl⟩
  | ok p =>
    obtain ⟨_, inp, _, hter, _, _, _, _, _, hlast, _⟩ := prepare_inv hp
    rcases h with ⟨l, hl⟩ | hl
    · rw [hl] at hter
      cases hb : inp.batched with
      | false => rw [hb] at hter; exact absurd hter nofun
      | true =>
        rw [hb] at hter
        rw [← Except.ok.inj hter] at hlast
        exact absurd (by rw [List.getLast?_append, List.getLast?_singleton]; rfl) hlast
    · rw [hl] at hter
      cases hb : inp.batched with
      | true => rw [hb] at hter; exact absurd hter nofun
      | false =>
        rw [hb] at hter
        rw [← Except.ok.inj hter] at hlast
        exact absurd rfl hlast

/-- In the middle of an episode nothing is accepted. -/
theorem mid_rejected (spec : Spec) (a : Args) : experience spec true a = ([], some .mid) := rfl

/-- Anything passed on comes from arguments of the same length. -/
theorem aligned (spec : Spec) (mid : Bool) (a : Args) (ts : List Nat) (rs : List Rat) (hne : (experience spec mid a).1 ≠ [])
    (ht : a.terminal = .many ts) (hr : a.reward = .many rs) :
    rs.length = ts.length ∧
    (∀ d, a.states = .dict d → ∀ e ∈ d, e.2.shape.head? = some ts.length) ∧
    (∀ x, a.states = .array x → x.shape.head? = some ts.length) ∧
    (∀ d ds, a.states = .list d ds → ds.length + 1 = ts.length) ∧
    (∀ x, a.actions = .array x → x.shape.head? = some ts.length) ∧
    (∀ d, a.actions = .dict d → ∀ e ∈ d, e.2.shape.head? = some ts.length) := by
  rcases experience_fed (spec := spec) (mid := mid) (a := a) with h | ⟨p, hp, _⟩
  · exact absurd h hne
  · obtain ⟨_, inp, hinp, hter, hrew, hlt, hlr, _, _, _, act, hact, hpa, hrows⟩ := prepare_inv hp
    have hb : inp.batched = true := by
      cases hb : inp.batched with
      | true => rfl
      | false => rw [hb, ht] at hter; exact absurd hter nofun
    rw [hb, ht] at hter
    rw [hb, hr] at hrew
    have e1 : ts = p.terminal := Except.ok.inj hter
    have e2 : rs = p.reward := Except.ok.inj hrew
    have hn : inp.num = ts.length := by rw [e1, hlt]
    rw [hb] at hpa
    have hpa : p.actions = act := hpa
    rw [hpa] at hrows
    have hact' := checkRows_all _ _ hrows
    have hcons := Verif.Props.Forms.consistent _ _ _ hinp
    rw [hn] at hact' hcons
    refine ⟨by rw [e2, hlr, hn], ?_, ?_, ?_, ?_, ?_⟩
    · intro d hd e he
      rw [hd] at hinp
      have hst := (processStates_dict_batched hinp hb).1
      rw [hst] at hcons
      exact hcons (some e.1, e.2) (List.mem_map.2 ⟨e, he, rfl⟩)
    · intro x hx
      rw [hx] at hinp
      have hst : inp.states = [(none, x)] := by
        unfold processStates at hinp
        obtain ⟨i, hi, hinp⟩ := bind_eq_ok hinp
        obtain ⟨u, _, hinp⟩ := bind_eq_ok hinp
        have := Except.ok.inj hinp
        subst this
        unfold processForm at hi
        dsimp only at hi
        split at hi
        · unfold processArray at hi
          split at hi
          · rw [← Except.ok.inj hi] at hb; exact absurd hb nofun
          · split at hi
            · split at hi
              · exact absurd hi nofun
              · rw [← Except.ok.inj hi]
            · exact absurd hi nofun
        · exact absurd hi nofun
      rw [hst] at hcons
      exact hcons (none, x) List.mem_cons_self
    · intro d ds hd
      rw [hd] at hinp
      unfold processStates at hinp
      obtain ⟨i, hi, hinp⟩ := bind_eq_ok hinp
      obtain ⟨u, _, hinp⟩ := bind_eq_ok hinp
      have := Except.ok.inj hinp
      subst this
      have hi : processList d ds = .ok i := hi
      unfold processList at hi
      obtain ⟨l, hl, hi⟩ := bind_eq_ok hi
      obtain ⟨st, _, hi⟩ := bind_eq_ok hi
      have hlen : l.length = ds.length := allDicts_length hl
      rw [← Except.ok.inj hi] at hn
      rw [← hlen]
      exact hn
    · intro x hx
      rw [hx] at hact
      have : [(none, x)] = act := Except.ok.inj hact
      rw [← this] at hact'
      exact hact' (none, x) List.mem_cons_self
    · intro d hd e he
      rw [hd] at hact
      unfold actionsOf at hact
      cases hit : (inp.iter == some true) with
      | true => rw [hit] at hact; exact absurd hact nofun
      | false =>
        rw [hit] at hact
        have : unnamed (keyed d) = act := Except.ok.inj hact
        rw [← this] at hact'
        have hmem : ∃ k, (k, e.2) ∈ unnamed (keyed d) := by
          have hk : (some e.1, e.2) ∈ keyed d := List.mem_map.2 ⟨e, he, rfl⟩
          unfold unnamed
          split
          · rename_i x hx
            rw [hx] at hk
            have := List.mem_singleton.1 hk
            exact ⟨none, by rw [(Prod.mk.inj this).2]; exact List.mem_cons_self⟩
          · exact ⟨_, hk⟩
        obtain ⟨k, hk⟩ := hmem
        exact hact' (k, e.2) hk

/-- Lists of dictionaries and dictionaries of arrays are the same experience, without internal states. -/
theorem forms_agree (spec : Spec) (mid : Bool) (d a : Dict) (ds as : List Dict) (ds' as' : Dict) (terminal : Scalars Nat) (reward : Scalars Rat)
    (name : String) (e : Ent) (x : Nd) (hint : spec.internals = []) (hd : SameForm d ds) (ha : SameForm a as)
    (hcd : Columns ds' d ds) (hca : Columns as' a as)
    (hact : a.map Prod.fst = ["action"] → ∀ c ∈ as, c.map Prod.fst = ["action"])
    (hspec : FirstState spec.states name e) (hx : valueOf name d = some x) (hs : x.shape = e.shape) :
    experience spec mid ⟨.list d (ds.map some), .dicts a as, terminal, reward, .absent⟩ =
      experience spec mid ⟨.dict ds', .dict as', terminal, reward, .absent⟩ := by
  have hcol : ∀ {a as' : Dict} {as : List Dict}, SameForm a as → Columns as' a as → keyed as' = a.map (fun e => (some e.1, stacked as e)) := by
    intro a as' as h hc
    obtain ⟨hnames, hrep⟩ := hc
    have hc : ∀ e ∈ a, ∀ x, (e.1, x) ∈ as' → x = stacked as e := by
      intro e he x hx
      have h1 := stacked_represents h he
      have h2 := represents_unique (hrep e he x hx) (List.cons_ne_nil _ _) h1.2.1
      rw [h2, List.length_cons, h1.2.2]
      rfl
    clear hrep h
    induction as' generalizing a with
    | nil => cases a with
      | nil => rfl
      | cons => exact absurd hnames nofun
    | cons b r ih => cases a with
      | nil => exact absurd hnames nofun
      | cons c t =>
        have hn := List.cons.inj hnames
        obtain ⟨bk, bx⟩ := b
        have hbk : bk = c.1 := hn.1
        subst hbk
        have := hc c List.mem_cons_self bx List.mem_cons_self
        show (some c.1, bx) :: keyed r = _
        rw [List.map_cons, this, ih hn.2 (fun e he x hx => hc e (List.mem_cons_of_mem _ he) x (List.mem_cons_of_mem _ hx))]
  have h1 := processStates_list spec.states hd
  obtain ⟨_, b, ha1, hb1, hst, hnum, _, hbat⟩ := Verif.Props.Forms.forms_agree spec.states d ds ds' name e x hd hcd hspec hx hs
  rw [h1] at ha1
  have ha1 := Except.ok.inj ha1
  rw [← ha1] at hst hnum
  have hiter := (processStates_dict_batched hb1 hbat).2
  have hact1 : actionsOf true (.dicts a as) = .ok (unnamed (a.map (fun e => (some e.1, stacked as e)))) := by
    rw [actionsOf, if_pos rfl, stackDicts_ok ha]
    split
    · rfl
    · rename_i hne
      congr 1
      unfold unnamed
      split
      · rename_i y hy
        exfalso
        apply hne
        have h2 : a.map Prod.fst = ["action"] := by
          cases a with
          | nil => exact absurd hy nofun
          | cons c t => cases t with
            | nil =>
              have h3 := (Prod.mk.inj (List.cons.inj hy).1).1
              rw [List.map_cons, Option.some.inj h3]; rfl
            | cons => exact absurd (List.cons.inj hy).2 nofun
        rw [List.all_eq_true]
        intro c hc
        rw [decide_eq_true_eq]
        rcases List.mem_cons.mp hc with rfl | hc
        · exact h2
        · exact hact h2 c hc
      · rfl
  have hact2 : actionsOf false (.dict as') = .ok (unnamed (a.map (fun e => (some e.1, stacked as e)))) := by
    rw [actionsOf, if_neg (by decide), hcol ha hca]
  have hprep : prepare spec mid ⟨.list d (ds.map some), .dicts a as, terminal, reward, .absent⟩ =
      prepare spec mid ⟨.dict ds', .dict as', terminal, reward, .absent⟩ := by
    unfold prepare
    cases mid with
    | true => rfl
    | false =>
      dsimp only
      rw [h1, hb1]
      show (check true .mid >>= fun _ => _) = (check true .mid >>= fun _ => _)
      congr 1
      funext _
      rw [bind_ok, bind_ok]
      dsimp only
      rw [hiter, show ((some true : Option Bool) == some true) = true from rfl, hact1, hact2, hbat, ← hst, ← hnum]
      unfold internalsOf
      rw [hint]
      rfl
  unfold experience
  rw [hprep]

/-- The mask of the only action is the one passed among the states. -/
theorem mask_given (spec : Spec) (mid : Bool) (a : Args) (d : Dict) (ts : List Nat) (fed : List Batch) (k : Key) (e : ActEnt) (m : Nat) (x : Nd)
    (hact : spec.actions = [(k, e)]) (hm : e.mask = some m) (hst : a.states = .dict d) (ht : a.terminal = .many ts)
    (hok : experience spec mid a = (fed, none)) (hx : valueOf (k.getD "action" ++ "_mask") d = some x) (hp : Proper x)
    (hrow : x.shape.head? = some ts.length) :
    Glued (e.ent.shape ++ [m]) x.data (fed.map (fun b => b.terminal.length)) (column Batch.masks k fed) :=
  mask_used hact hm hst ht hok (by rw [hx]; rfl) hp hrow

/-- Without a mask every choice is allowed. -/
theorem mask_default (spec : Spec) (mid : Bool) (a : Args) (d : Dict) (ts : List Nat) (fed : List Batch) (k : Key) (e : ActEnt) (m : Nat)
    (hact : spec.actions = [(k, e)]) (hm : e.mask = some m) (hst : a.states = .dict d) (ht : a.terminal = .many ts)
    (hok : experience spec mid a = (fed, none)) (hx : valueOf (k.getD "action" ++ "_mask") d = none) :
    Glued (e.ent.shape ++ [m]) (List.replicate (ts.length * count (e.ent.shape ++ [m])) 1)
      (fed.map (fun b => b.terminal.length)) (column Batch.masks k fed) := by
  have := mask_used (x := ones (ts.length :: (e.ent.shape ++ [m]))) hact hm hst ht hok (by rw [hx]; rfl)
    (by show (List.replicate _ _).length = _; rw [List.length_replicate, size_eq]; rfl) rfl
  unfold ones at this
  rw [size_eq] at this
  exact this

/-- An agent with one state and one action, both unnamed. -/
def plain : Spec := ⟨[(none, ⟨[], fun _ => true⟩)], [(none, ⟨⟨[], fun v => v == 0 || v == 1⟩, none⟩)], []⟩

/-- An agent with a named state and an internal state. -/
def recurrent : Spec := ⟨[(some "s", ⟨[], fun _ => true⟩)], [(none, ⟨⟨[], fun _ => true⟩, none⟩)], [("h", ⟨[2], [0, 0]⟩)]⟩

/-- An agent with two actions. -/
def twoActions : Spec := ⟨[(none, ⟨[], fun _ => true⟩)],
  [(some "a", ⟨⟨[], fun _ => true⟩, none⟩), (some "b", ⟨⟨[], fun _ => true⟩, none⟩)], []⟩

/-- An agent whose action is called `action`. -/
def called : Spec := ⟨[(some "s", ⟨[], fun _ => true⟩)], [(some "action", ⟨⟨[], fun _ => true⟩, none⟩)], []⟩

/-- Internal states may not be left out with a dictionary of states: the initial values are repeated along the wrong dimension. -/
theorem internals_violation :
    experience recurrent false ⟨.dict [("s", ⟨[2], [1, 2]⟩)], .array ⟨[2], [0, 0]⟩, .many [0, 1], .many [0, 0], .absent⟩ =
      ([], some .value) ∧
    tile 2 ⟨[2], [0, 0]⟩ = ⟨[1, 4], [0, 0, 0, 0]⟩ := by decide +kernel

/-- Nor with a single time step. -/
theorem single_internals_violation :
    experience recurrent false ⟨.dict [("s", ⟨[], [1]⟩)], .array ⟨[], [0]⟩, .one 1, .one 0, .absent⟩ = ([], some .shape) := by
  decide +kernel

/-- A single time step with a number as action is rejected. -/
theorem number_violation :
    experience plain false ⟨.array ⟨[], [1]⟩, .other, .one 1, .one 0, .absent⟩ = ([], some .type) ∧
    (experience plain false ⟨.array ⟨[], [1]⟩, .array ⟨[], [0]⟩, .one 1, .one 0, .absent⟩).2 = none := by decide +kernel

/-- An array of states together with a dictionary of actions is rejected. -/
theorem mixed_violation :
    experience twoActions false ⟨.array ⟨[2], [1, 2]⟩, .dict [("a", ⟨[2], [0, 0]⟩), ("b", ⟨[2], [0, 0]⟩)], .many [0, 1], .many [0, 0], .absent⟩ =
      ([], some .type) := by decide +kernel

/-- An agent whose only action is named `action` cannot be fed by name. -/
theorem called_violation :
    experience called false ⟨.dict [("s", ⟨[2], [1, 2]⟩)], .dict [("action", ⟨[2], [0, 0]⟩)], .many [0, 1], .many [0, 0], .absent⟩ =
      ([], some .keys) := by decide +kernel

/-- An error in a later episode does not take back the earlier ones. -/
theorem atomic_violation :
    experience plain false ⟨.array ⟨[2], [1, 2]⟩, .array ⟨[2], [0, 7]⟩, .many [1, 1], .many [0, 0], .absent⟩ =
      ([⟨[(none, ⟨[1], [1]⟩)], [], [], [(none, ⟨[1], [0]⟩)], [1], [0]⟩], some .range) := by decide +kernel

example : experience plain false ⟨.array ⟨[3], [1, 2, 3]⟩, .array ⟨[3], [0, 1, 0]⟩, .many [0, 1, 2], .many [4, 5, 6], .absent⟩ =
    ([⟨[(none, ⟨[2], [1, 2]⟩)], [], [], [(none, ⟨[2], [0, 1]⟩)], [0, 1], [4, 5]⟩,
      ⟨[(none, ⟨[1], [3]⟩)], [], [], [(none, ⟨[1], [0]⟩)], [2], [6]⟩], none) := by decide +kernel

example : experience ⟨[(some "s", ⟨[], fun _ => true⟩)], [(none, ⟨⟨[], fun _ => true⟩, some 2⟩)], []⟩ false
    ⟨.dict [("s", ⟨[2], [1, 2]⟩), ("action_mask", ⟨[2, 2], [1, 0, 0, 1]⟩)], .array ⟨[2], [0, 1]⟩, .many [0, 1], .many [0, 0], .absent⟩ =
    ([⟨[(some "s", ⟨[2], [1, 2]⟩)], [], [(none, ⟨[2, 2], [1, 0, 0, 1]⟩)], [(none, ⟨[2], [0, 1]⟩)], [0, 1], [0, 0]⟩], none) := by decide +kernel

example : Sound plain := by
  refine ⟨.inl ⟨_, rfl⟩, .inl ⟨_, rfl⟩, ?_, ?_, fun _ => ⟨_, rfl⟩, .inl rfl, nofun, List.nodup_nil⟩
  · intro e he; rw [List.mem_singleton.1 he]
  · intro e he; rw [List.mem_singleton.1 he]; exact nofun

example : Fits plain ⟨[(none, ⟨[3], [1, 2, 3]⟩)], [(none, ⟨[3], [0, 1, 0]⟩)], [0, 1, 2], [4, 5, 6], []⟩ 3 :=
  ⟨.cons rfl rfl (fun _ _ => rfl) .nil, .cons rfl rfl (by decide +kernel) .nil, rfl, rfl, ⟨[0, 1], 2, by decide, rfl⟩, rfl⟩

end Verif.Props.Experience
