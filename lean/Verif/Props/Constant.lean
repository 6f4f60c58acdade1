import Verif.Const.Lemmas

/-!
# The constant agent (C125)
-/

namespace Verif.Props.Constant

open Verif.Const

/-- The actions of a created agent are those specified, in their order. -/
theorem actions_kept (c : Config) (actions : List (String × Action)) (given : Option (List (String × Given))) (ps : List (Action × Plan))
    (h : create c actions given = .ok ps) : ps.map (·.1) = actions.map (·.2) := by
  unfold create at h
  cases hg : givenValues (given.getD []) actions with
  | error e => rw [hg] at h; cases h
  | ok values => rw [hg] at h; exact (plans_get h).1

/-- The agent is created if the bounds are single numbers, the values given are in the space of their actions, integer actions without
number of values are not checked for masks, and integer actions with two bounds have a mask or a value. What is missing: the other integer
actions, see `key_violation` and `int_violation`, and arrays, see `array_violation`. -/
theorem accepted_partial (c : Config) (actions : List (String × Action)) (given : Option (List (String × Given)))
    (hn : (actions.map (·.1)).Nodup) (hp : ∀ e ∈ actions, Plain e.2)
    (hg : ∀ e ∈ actions, ∀ g, Entry (given.getD []) e.1 g → ∃ v, Converted e.2.kind g v ∧ InSpace e.2 v)
    (hk : ∀ e ∈ actions, e.2.kind = .int none → c.assertions = false ∨ c.masking = false)
    (hm : ∀ e ∈ actions, (∃ n, e.2.kind = .int n) → Absent (given.getD []) e.1 → Masked c e.2 ∨ e.2.lo = none ∨ e.2.hi = none) :
    ∃ ps, create c actions given = .ok ps := by
  have hent : ∀ name g, (given.getD []).lookup name = some g → Entry (given.getD []) name g := by
    intro name
    generalize given.getD [] = l
    intro g h
    induction l with
    | nil => cases h
    | cons e l ih =>
      obtain ⟨n, x⟩ := e
      rw [List.lookup_cons] at h
      cases hb : name == n with
      | true =>
        rw [hb] at h
        cases h
        rw [beq_iff_eq] at hb
        subst hb
        exact ⟨[], l, rfl, nofun⟩
      | false =>
        rw [hb] at h
        obtain ⟨s, t, e, hs⟩ := ih h
        refine ⟨(n, x) :: s, t, by rw [e]; rfl, fun d hd => ?_⟩
        rcases List.mem_cons.1 hd with rfl | hd
        · exact fun e => (beq_eq_false_iff_ne.1 hb) e.symm
        · exact hs d hd
  have habs : ∀ name, (given.getD []).lookup name = none → Absent (given.getD []) name := by
    intro name h e he hne
    have := List.lookup_eq_none_iff.1 h e he
    rw [hne] at this
    simp at this
  obtain ⟨values, hvals⟩ := givenValues_ok (given := given.getD []) (actions := actions) (fun name a ha g hl => by
    obtain ⟨v, hs, hi⟩ := hg (name, a) ha g (hent name g hl)
    obtain ⟨h1, h2⟩ := of_inSpace (hp (name, a) ha) hi
    exact ⟨v, checkGiven_ok (convert_to hs) h1 h2⟩)
  unfold create
  rw [hvals]
  refine plans_ok (fun name a ha => ⟨?_, ?_⟩)
  · unfold maskExists
    cases hkk : a.kind with
    | bool => rfl
    | float => rfl
    | int n =>
      cases n with
      | some n => rfl
      | none =>
        rcases hk (name, a) ha hkk with h | h
        · dsimp only; rw [h]; rfl
        · dsimp only; rw [h, Bool.and_false]; rfl
  · have hl := givenValues_lookup hvals hn ha
    cases hgl : (given.getD []).lookup name with
    | some g =>
      rw [hgl] at hl
      obtain ⟨v, _, h2⟩ := hl
      rw [h2]
      exact ⟨_, rfl⟩
    | none =>
      rw [hgl] at hl
      have hl : values.lookup name = none := hl
      rw [hl]
      have hpl := hp (name, a) ha
      have hfb : ∀ kind b, (some b = a.lo ∨ some b = a.hi) → ∃ p, fillBound kind b = .ok p := by
        intro kind b hb
        cases b with
        | array => rcases hb with hb | hb; exacts [absurd hb.symm hpl.1, absurd hb.symm hpl.2]
        | num x => cases kind <;> exact ⟨_, rfl⟩
      unfold plan
      cases hkk : a.kind with
      | bool => dsimp only; unfold planBounds; rw [hkk]; exact ⟨_, rfl⟩
      | float =>
        dsimp only
        unfold planBounds
        rw [hkk]
        dsimp only
        rcases hlo : a.lo with _ | l
        · rcases hhi : a.hi with _ | u
          · exact ⟨_, rfl⟩
          · exact hfb _ u (Or.inr hhi.symm)
        · rcases hhi : a.hi with _ | u
          · exact hfb _ l (Or.inl hlo.symm)
          · dsimp only
            cases l with
            | array => exact absurd hlo hpl.1
            | num x =>
              cases u with
              | array => exact absurd hhi hpl.2
              | num y => exact ⟨_, rfl⟩
      | int n =>
        have main : a.lo = none ∨ a.hi = none → ∃ p, planBounds a = .ok p := by
          intro hor
          unfold planBounds
          rw [hkk]
          dsimp only
          rcases hlo : a.lo with _ | l
          · rcases hhi : a.hi with _ | u
            · exact ⟨_, rfl⟩
            · exact hfb _ u (Or.inr hhi.symm)
          · rcases hor with h | h
            · rw [h] at hlo; cases hlo
            · rw [h]
              exact hfb _ l (Or.inl hlo.symm)
        rcases hm (name, a) ha ⟨n, hkk⟩ (habs name hgl) with ⟨h1, k, h2⟩ | h
        · have h2 : a.kind = .int (some k) := h2
          rw [hkk] at h2
          cases h2
          dsimp only
          rw [if_pos h1]
          exact ⟨_, rfl⟩
        · cases n with
          | none => exact main h
          | some n =>
            dsimp only
            split
            · exact ⟨_, rfl⟩
            · exact main h

/-- A value given for an action is returned for every entry of every time step, if the masks allow it. -/
theorem given_returned (c : Config) (actions : List (String × Action)) (given : List (String × Given)) (ps : List (Action × Plan))
    (h : create c actions (some given) = .ok ps) (hn : (actions.map (·.1)).Nodup) (i : Nat) (name : String) (a : Action) (p : Plan) (g : Given)
    (v : Val) (ha : actions[i]? = some (name, a)) (hp : ps[i]? = some (a, p)) (hg : Entry given name g) (hs : Converted a.kind g v)
    (batch : Nat) (mask : List (List Bool)) (hm : Masked c a → ∀ row ∈ mask, Allowed row v) :
    act c batch a p mask = .ok (List.replicate (batch * a.size) v) ∧
    independentAct c batch a p mask = .ok (List.replicate (batch * a.size) v) := by
  obtain ⟨w, hw, rfl⟩ := (created_plan h hn ha hp).1 g (lookup_entry hg)
  obtain ⟨h1, h2, h3⟩ := checkGiven_inv hw
  rw [convert_to hs] at h1
  cases h1
  have hact : act c batch a (.fill v) mask = .ok (List.replicate (batch * a.size) v) := by
    unfold act
    rw [maskOk_of (fun _ hma row hr => by obtain ⟨k, _, hk⟩ := hm hma row hr; exact ⟨k, hk⟩), if_neg (by simp)]
    show afterOk c a mask (List.replicate (batch * a.size) v) = _
    refine afterOk_of (fun _ w hw => ?_) (fun _ hma i row w hr hw => ?_)
    · rw [List.eq_of_mem_replicate hw]
      exact ⟨h2, h3⟩
    · rw [List.eq_of_mem_replicate (List.mem_of_getElem? hw)]
      exact hm hma row (List.mem_of_getElem? hr)
  exact ⟨hact, act_independent hact⟩

/-- Values outside of the space of their action are rejected. -/
theorem out_of_space (c : Config) (actions : List (String × Action)) (given : List (String × Given)) (hn : (actions.map (·.1)).Nodup)
    (name : String) (a : Action) (g : Given) (v : Val) (ha : (name, a) ∈ actions) (hg : Entry given name g) (hs : Converted a.kind g v)
    (hv : ¬InSpace a v) :
    (∀ ps, create c actions (some given) ≠ .ok ps) ∧ (Plain a → create c [(name, a)] (some given) = .error .value) := by
  constructor
  · intro ps h
    unfold create at h
    cases hgv : givenValues ((some given).getD []) actions with
    | error e => rw [hgv] at h; cases h
    | ok values =>
      have hl := givenValues_lookup hgv hn ha
      rw [show (some given).getD [] = given from rfl, lookup_entry hg] at hl
      obtain ⟨w, h1, _⟩ := hl
      obtain ⟨e1, e2, e3⟩ := checkGiven_inv h1
      rw [convert_to hs] at e1
      cases e1
      exact hv (inSpace_of (convert_fits (convert_to hs)) e2 e3)
  · intro hp
    have hc : checkGiven a g = .error .value := by
      unfold checkGiven
      rw [convert_to hs]
      show (match below v a.lo with | none => _ | some true => _ | some false => _) = _
      have hb : below v a.lo ≠ none := by
        unfold below
        cases v.number with
        | none => nofun
        | some x =>
          rcases hlo : a.lo with _ | l
          · nofun
          · cases l with
            | array => exact absurd hlo hp.1
            | num l => nofun
      have ha' : above v a.hi ≠ none := by
        unfold above
        cases v.number with
        | none => nofun
        | some x =>
          rcases hhi : a.hi with _ | l
          · nofun
          · cases l with
            | array => exact absurd hhi hp.2
            | num l => nofun
      rcases hbb : below v a.lo with _ | b
      · exact absurd hbb hb
      · cases b with
        | true => rfl
        | false =>
          show (match above v a.hi with | none => _ | some true => _ | some false => _) = _
          rcases haa : above v a.hi with _ | b
          · exact absurd haa ha'
          · cases b with
            | true => rfl
            | false => exact absurd (inSpace_of (convert_fits (convert_to hs)) hbb haa) hv
    unfold create givenValues
    rw [show (some given).getD [] = given from rfl, lookup_entry hg]
    dsimp only
    rw [hc]

/-- Values which cannot be converted are rejected. -/
theorem unconvertible (c : Config) (actions : List (String × Action)) (given : List (String × Given)) (hn : (actions.map (·.1)).Nodup)
    (name : String) (a : Action) (ha : (name, a) ∈ actions) (hg : Entry given name .other) :
    (∀ ps, create c actions (some given) ≠ .ok ps) ∧ create c [(name, a)] (some given) = .error .conversion := by
  have hc : checkGiven a .other = .error .conversion := by
    unfold checkGiven convert
    cases a.kind <;> rfl
  constructor
  · intro ps h
    unfold create at h
    cases hgv : givenValues ((some given).getD []) actions with
    | error e => rw [hgv] at h; cases h
    | ok values =>
      have hl := givenValues_lookup hgv hn ha
      rw [show (some given).getD [] = given from rfl, lookup_entry hg] at hl
      obtain ⟨w, h1, _⟩ := hl
      rw [hc] at h1
      cases h1
  · unfold create givenValues
    rw [show (some given).getD [] = given from rfl, lookup_entry hg]
    dsimp only
    rw [hc]

/-- Without given value and mask the default is returned: false, the only bound, the middle of two bounds, or zero. -/
theorem default_returned (c : Config) (actions : List (String × Action)) (given : Option (List (String × Given))) (ps : List (Action × Plan))
    (h : create c actions given = .ok ps) (hn : (actions.map (·.1)).Nodup) (i : Nat) (name : String) (a : Action) (p : Plan)
    (ha : actions[i]? = some (name, a)) (hp : ps[i]? = some (a, p)) (hg : Absent (given.getD []) name) (hv : Valid a) (hm : ¬Masked c a) :
    ∃ v, Default a v ∧ ∀ batch mask, act c batch a p mask = .ok (List.replicate (batch * a.size) v) ∧
      independentAct c batch a p mask = .ok (List.replicate (batch * a.size) v) := by
  have hpl := (created_plan h hn ha hp).2 (lookup_absent hg)
  have hpb : planBounds a = .ok p := by
    unfold plan at hpl
    dsimp only at hpl
    cases hk : a.kind with
    | bool => rw [hk] at hpl; exact hpl
    | float => rw [hk] at hpl; exact hpl
    | int n =>
      cases n with
      | none => rw [hk] at hpl; exact hpl
      | some n =>
        rw [hk] at hpl
        dsimp only at hpl
        split at hpl
        · rename_i hc; exact absurd ⟨hc, n, hk⟩ hm
        · exact hpl
  obtain ⟨v, rfl, hd⟩ := planBounds_default hv hpb
  refine ⟨v, hd, fun batch mask => ?_⟩
  have hsp : below v a.lo = some false ∧ above v a.hi = some false := by
    by_cases hk : a.kind = .bool
    · obtain ⟨h1, h2⟩ := hv.bool hk
      exact of_inSpace ⟨by rw [h1]; nofun, by rw [h2]; nofun⟩ (default_space hv hd)
    · exact of_inSpace (planBounds_plain hpb hk) (default_space hv hd)
  have hact : act c batch a (.fill v) mask = .ok (List.replicate (batch * a.size) v) := by
    unfold act
    rw [maskOk_of (fun _ hma => absurd hma hm), if_neg (by simp)]
    refine afterOk_of (fun _ w hw => ?_) (fun _ hma => absurd hma hm)
    rw [List.eq_of_mem_replicate hw]
    exact hsp
  exact ⟨hact, act_independent hact⟩

/-- Without given value, masked actions are the first option allowed, for every entry of every time step. -/
theorem first_allowed (c : Config) (actions : List (String × Action)) (given : Option (List (String × Given))) (ps : List (Action × Plan))
    (h : create c actions given = .ok ps) (hn : (actions.map (·.1)).Nodup) (i : Nat) (name : String) (a : Action) (p : Plan) (n : Nat)
    (ha : actions[i]? = some (name, a)) (hp : ps[i]? = some (a, p)) (hg : Absent (given.getD []) name) (hv : Valid a)
    (hk : a.kind = .int (some n)) (hc : c.masking = true) (batch : Nat) (mask : List (List Bool)) (hm : MaskFor n (batch * a.size) mask)
    (hs : SomeAllowed mask) :
    ∃ vs, act c batch a p mask = .ok vs ∧ independentAct c batch a p mask = .ok vs ∧ vs.length = batch * a.size ∧
      ∀ (j : Nat) row v, mask[j]? = some row → vs[j]? = some v → ∃ k : Nat, v = .int k ∧ Least row k := by
  have hpl := (created_plan h hn ha hp).2 (lookup_absent hg)
  unfold plan at hpl
  rw [hk] at hpl
  dsimp only at hpl
  rw [if_pos hc] at hpl
  cases hpl
  obtain ⟨xs, h1, h2, h3⟩ := gather_first n mask [] hm.2 hs
  have hex : execute batch a (.first n) mask = .ok (xs.map (fun x : Nat => Val.int x)) := by
    unfold execute
    dsimp only
    rw [show gather (choices n mask) (offsets 0 (numValid mask)) = some xs from h1]
  have hent : ∀ (j : Nat) row v, mask[j]? = some row → (xs.map (fun x : Nat => Val.int x))[j]? = some v → ∃ k : Nat, v = .int k ∧ Least row k := by
    intro j row v hr hx
    rw [List.getElem?_map] at hx
    obtain ⟨k, hk, rfl⟩ := Option.map_eq_some_iff.1 hx
    exact ⟨k, rfl, h3 j row k hr hk⟩
  have hact : act c batch a (.first n) mask = .ok (xs.map (fun x : Nat => Val.int x)) := by
    unfold act
    rw [maskOk_of (fun _ _ => hs), if_neg (by simp), hex]
    refine afterOk_of (fun _ v hv' => ?_) (fun _ _ j row v hr hx => ?_)
    · obtain ⟨j, hj⟩ := List.mem_iff_getElem?.1 hv'
      have hjl : j < mask.length := by
        have := (List.getElem?_eq_some_iff.1 hj).1
        rwa [List.length_map, h2] at this
      obtain ⟨k, rfl, hl⟩ := hent j _ v (List.getElem?_eq_getElem hjl) hj
      have hkn : k < n := by
        have := (List.getElem?_eq_some_iff.1 hl.1).1
        rwa [hm.2 _ (List.getElem_mem hjl)] at this
      obtain ⟨e1, e2⟩ := hv.values n hk (by omega)
      rw [e1, e2]
      constructor
      · show some (decide (((k : Int) : ℚ) < 0)) = _
        rw [decide_eq_false (by rw [not_lt]; exact_mod_cast Nat.zero_le k)]
      · show some (decide ((n : ℚ) - 1 < ((k : Int) : ℚ))) = _
        have h' : ((k : Int) : ℚ) ≤ (n : ℚ) - 1 := by
          have : ((k + 1 : Nat) : ℚ) ≤ (n : ℚ) := by exact_mod_cast hkn
          push_cast at this ⊢
          linarith
        rw [decide_eq_false (not_lt.2 h')]
    · obtain ⟨k, rfl, hl⟩ := hent j row v hr hx
      exact ⟨k, rfl, hl.1⟩
  refine ⟨_, hact, act_independent hact, by rw [List.length_map, h2, hm.1], hent⟩

/-- Masks that allow nothing for some entry are refused, unless assertions are switched off. -/
theorem none_allowed (c : Config) (a : Action) (p : Plan) (batch : Nat) (mask : List (List Bool)) (row : List Bool) (hc : c.assertions = true)
    (hm : Masked c a) (hr : row ∈ mask) (h : ∀ k : Nat, row[k]? ≠ some true) :
    act c batch a p mask = .error .noneValid ∧ independentAct c batch a p mask = .error .noneValid := by
  unfold act independentAct
  rw [maskOk_not hc hm hr h]
  exact ⟨rfl, rfl⟩

/-- Without assertions a mask that allows nothing for the last entry makes the lookup fail. -/
theorem last_none_allowed (c : Config) (a : Action) (batch n : Nat) (rows : List (List Bool)) (row : List Bool) (hc : c.assertions = false)
    (hm : ∀ r ∈ rows ++ [row], r.length = n) (h : ∀ k : Nat, row[k]? ≠ some true) :
    act c batch a (.first n) (rows ++ [row]) = .error .gather ∧ independentAct c batch a (.first n) (rows ++ [row]) = .error .gather := by
  have hok : maskOk c a (rows ++ [row]) = true := by
    unfold maskOk
    rw [hc]
    rfl
  have hex : execute batch a (.first n) (rows ++ [row]) = .error .gather := by
    unfold execute
    dsimp only
    rw [gather_last n rows row hm h]
  unfold act independentAct
  rw [hok, hex]
  exact ⟨rfl, rfl⟩

example : act ⟨true, false⟩ 1 ⟨.int (some 2), some (.num 0), some (.num 1), 2⟩ (.first 2) [[true, false], [false, false]] = .error .gather := by decide +kernel

/-- Without assertions a mask that allows nothing for an entry in between is not noticed: the entry is the first option allowed in the next row. -/
theorem between_violation : act ⟨true, false⟩ 1 ⟨.int (some 2), some (.num 0), some (.num 1), 2⟩ (.first 2) [[false, false], [false, true]] = .ok [.int 1, .int 1] := by
  decide +kernel

/-- Without assertions a given value is returned whatever the masks. -/
theorem unchecked (c : Config) (a : Action) (batch : Nat) (v : Val) (mask : List (List Bool)) (hc : c.assertions = false) :
    act c batch a (.fill v) mask = .ok (List.replicate (batch * a.size) v) ∧ independentAct c batch a (.fill v) mask = .ok (List.replicate (batch * a.size) v) := by
  unfold act independentAct maskOk execute afterOk
  rw [hc]
  exact ⟨rfl, rfl⟩

example : act ⟨true, false⟩ 1 ⟨.int (some 2), some (.num 0), some (.num 1), 1⟩ (.fill (.int 1)) [[true, false]] = .ok [.int 1] := by decide +kernel

/-- With assertions, every action which `act` returns is in its space, and allowed by the masks. -/
theorem returned_valid (c : Config) (a : Action) (p : Plan) (batch : Nat) (mask : List (List Bool)) (vs : List Val)
    (hc : c.assertions = true) (h : act c batch a p mask = .ok vs) :
    (∀ v ∈ vs, ∀ x, Numeric v x → (∀ l, a.lo = some (.num l) → l ≤ x) ∧ ∀ u, a.hi = some (.num u) → x ≤ u) ∧
    (Masked c a → ∀ (j : Nat) row v, mask[j]? = some row → vs[j]? = some v → Allowed row v) := by
  unfold act at h
  split at h
  · cases h
  · cases he : execute batch a p mask with
    | error e => rw [he] at h; cases h
    | ok ws =>
      rw [he] at h
      have hw := afterOk_inv h
      subst hw
      dsimp only at h
      unfold afterOk at h
      rw [hc, if_neg (by simp)] at h
      split at h
      · cases h
      · rename_i h1
        split at h
        · cases h
        · rename_i h2
          have h1 : vs.all (inSpace a) = true := by simpa using h1
          constructor
          · intro v hv x hx
            have := List.all_eq_true.1 h1 v hv
            unfold inSpace at this
            rw [Bool.and_eq_true, beq_iff_eq, beq_iff_eq] at this
            exact ⟨(below_false.1 this.1 x hx).2, (above_false.1 this.2 x hx).2⟩
          · intro hm j row v hr hv
            rw [hasMask_iff.2 hm, Bool.true_and] at h2
            have h2 : (mask.zip vs).all (fun e => allowed e.1 e.2) = true := by simpa using h2
            exact allowed_iff.1 (List.all_eq_true.1 h2 (row, v) (List.mem_of_getElem? (List.getElem?_zip_eq_some.2 ⟨hr, hv⟩)))

/-- The documented default is returned for boolean actions, for actions without bounds, and for those with mask if it allows zero. What is
missing: actions with bounds, see `middle_violation`, and other masks. -/
theorem documented_partial (c : Config) (actions : List (String × Action)) (given : Option (List (String × Given))) (ps : List (Action × Plan))
    (h : create c actions given = .ok ps) (hn : (actions.map (·.1)).Nodup) (i : Nat) (name : String) (a : Action) (p : Plan)
    (ha : actions[i]? = some (name, a)) (hp : ps[i]? = some (a, p)) (hg : Absent (given.getD []) name) (hv : Valid a) (batch : Nat)
    (mask : List (List Bool)) (hd : ¬Masked c a ∧ a.lo = none ∧ a.hi = none ∨
      c.masking = true ∧ ∃ n, a.kind = .int (some n) ∧ MaskFor n (batch * a.size) mask ∧ ∀ row ∈ mask, row[0]? = some true) :
    ∃ v, Documented a.kind v ∧ act c batch a p mask = .ok (List.replicate (batch * a.size) v) := by
  rcases hd with ⟨hm, hlo, hhi⟩ | ⟨hc, n, hk, hmf, h0⟩
  · obtain ⟨v, hd, hr⟩ := default_returned c actions given ps h hn i name a p ha hp hg hv hm
    refine ⟨v, ?_, (hr batch mask).1⟩
    cases hd with
    | bool hk => rw [hk]; exact .bool
    | zero _ _ _ hd => exact hd
    | lower e => rw [hlo] at e; cases e
    | upper _ e => rw [hhi] at e; cases e
    | middle _ e => rw [hlo] at e; cases e
  · obtain ⟨vs, h1, _, h3, h4⟩ := first_allowed c actions given ps h hn i name a p n ha hp hg hv hk hc batch mask hmf
      (fun row hr => ⟨0, h0 row hr⟩)
    refine ⟨.int 0, by rw [hk]; exact .int _, ?_⟩
    rw [h1]
    congr 1
    rw [List.eq_replicate_iff]
    refine ⟨h3, fun v hv' => ?_⟩
    obtain ⟨j, hj⟩ := List.mem_iff_getElem?.1 hv'
    have hjl : j < mask.length := by
      have := (List.getElem?_eq_some_iff.1 hj).1
      rwa [h3, ← hmf.1] at this
    obtain ⟨k, rfl, hl⟩ := h4 j _ v (List.getElem?_eq_getElem hjl) hj
    cases k with
    | zero => rfl
    | succ k => exact absurd (h0 _ (List.getElem_mem hjl)) (hl.2 0 (by omega))

/-- Documented is 0.0, but the middle of the bounds is returned, also if zero is within them. -/
theorem middle_violation : let a : Action := ⟨.float, some (.num (-1)), some (.num 3), 1⟩
    create ⟨true, true⟩ [("action", a)] none = .ok [(a, .fill (.float 1))] ∧
    act ⟨true, true⟩ 1 a (.fill (.float 1)) [] = .ok [.float 1] ∧ InSpace a (.float 0) := by
  intro a
  refine ⟨by decide +kernel, by decide +kernel, rfl, fun x hx => ?_⟩
  cases hx
  refine ⟨fun l e => ?_, fun u e => ?_⟩
  · cases e; norm_num
  · cases e; norm_num

/-- Integer actions with two bounds cannot be used without mask, for example any with a number of values if masking is switched off. -/
theorem int_violation (c : Config) (name : String) (a : Action) (n : Option Nat) (hk : a.kind = .int n) (hm : ¬Masked c a) (hlo : a.lo ≠ none)
    (hhi : a.hi ≠ none) : ∃ e, create c [(name, a)] none = .error e := by
  unfold create givenValues
  dsimp only [Option.getD, List.lookup]
  unfold givenValues
  dsimp only
  unfold plans
  split
  · exact ⟨_, rfl⟩
  · have : plan c a none = .error .dtype := by
      obtain ⟨l, hl⟩ := Option.ne_none_iff_exists'.1 hlo
      obtain ⟨u, hu⟩ := Option.ne_none_iff_exists'.1 hhi
      have hpb : planBounds a = .error .dtype := by
        unfold planBounds
        rw [hk]
        dsimp only
        rw [hl, hu]
        rfl
      unfold plan
      rw [hk]
      cases n with
      | none => exact hpb
      | some n =>
        dsimp only
        rw [if_neg (fun hc => hm ⟨hc, n, hk⟩)]
        exact hpb
    rw [show List.lookup name ([] : List (String × Val)) = none from rfl, this]
    exact ⟨_, rfl⟩

/-- Integer actions without number of values cannot be used with the default configuration, also if a value is given. -/
theorem key_violation (name : String) (lo hi : Option Bound) (size : Nat) (given : Option (List (String × Given))) :
    ∃ e, create ⟨true, true⟩ [(name, ⟨.int none, lo, hi, size⟩)] given = .error e := by
  unfold create
  cases hg : givenValues (given.getD []) [(name, (⟨.int none, lo, hi, size⟩ : Action))] with
  | error e => exact ⟨e, rfl⟩
  | ok values => exact ⟨.key, rfl⟩

/-- Actions with arrays as bounds cannot be used, also if a value is given. -/
theorem array_violation (c : Config) (name : String) (hi : Option Bound) (size : Nat) (x : ℚ) :
    create c [(name, ⟨.float, some .array, hi, size⟩)] none = .error .fill ∧
    create c [(name, ⟨.float, some .array, hi, size⟩)] (some [(name, .float x)]) = .error .ambiguous := by
  constructor
  · unfold create
    show plans c [] [(name, (⟨.float, some .array, hi, size⟩ : Action))] = _
    unfold plans
    rcases hi with _ | _ <;> rfl
  · unfold create givenValues
    rw [show (some [(name, Given.float x)]).getD [] = [(name, Given.float x)] from rfl, List.lookup_cons, BEq.rfl]
    rfl

/-- The same for an array as upper bound, with or without lower bound. -/
theorem upper_array_violation (c : Config) (name : String) (size : Nat) (l x : ℚ) (h : l ≤ x) :
    create c [(name, ⟨.float, none, some .array, size⟩)] none = .error .fill ∧
    create c [(name, ⟨.float, some (.num l), some .array, size⟩)] none = .error .fill ∧
    create c [(name, ⟨.float, none, some .array, size⟩)] (some [(name, .float x)]) = .error .ambiguous ∧
    create c [(name, ⟨.float, some (.num l), some .array, size⟩)] (some [(name, .float x)]) = .error .ambiguous := by
  have hl : ([(name, Given.float x)] : List (String × Given)).lookup name = some (.float x) := by rw [List.lookup_cons, BEq.rfl]
  refine ⟨rfl, rfl, ?_, ?_⟩
  · unfold create givenValues
    rw [show (some [(name, Given.float x)]).getD [] = [(name, Given.float x)] from rfl, hl]
    rfl
  · unfold create givenValues
    rw [show (some [(name, Given.float x)]).getD [] = [(name, Given.float x)] from rfl, hl]
    dsimp only
    unfold checkGiven
    rw [convert_to (.float x)]
    dsimp only
    rw [show below (.float x) (some (.num l)) = some false from congrArg some (decide_eq_false (not_lt.2 h))]
    rfl

/-- Values for unknown actions are ignored. -/
theorem unknown_violation (c : Config) (actions : List (String × Action)) (name : String) (g : Given) (h : Absent actions name) :
    create c actions (some [(name, g)]) = create c actions none := by
  have : ∀ l : List (String × Action), Absent l name → givenValues [(name, g)] l = givenValues [] l := by
    intro l
    induction l with
    | nil => intro _; rfl
    | cons e rest ih =>
      intro hl
      obtain ⟨n, a⟩ := e
      have hn : (n == name) = false := beq_eq_false_iff_ne.2 (hl (n, a) List.mem_cons_self)
      unfold givenValues
      rw [List.lookup_cons, hn]
      exact ih (fun e he => hl e (List.mem_cons_of_mem _ he))
  unfold create
  rw [show (some [(name, g)]).getD [] = [(name, g)] from rfl, show (none : Option (List (String × Given))).getD [] = [] from rfl, this actions h]

/-- A value with fraction is given for an integer action, and another one is returned. -/
theorem fraction_violation : let a : Action := ⟨.int (some 4), some (.num 0), some (.num 3), 1⟩
    create ⟨true, true⟩ [("action", a)] (some [("action", .float (27 / 10))]) = .ok [(a, .fill (.int 2))] ∧
    act ⟨true, true⟩ 1 a (.fill (.int 2)) [[true, true, true, true]] = .ok [.int 2] := by
  refine ⟨by decide +kernel, by decide +kernel⟩

/-- Given values ignore masks: the independent form returns them, the other raises an error, for every mask that does not allow the value. -/
theorem mask_violation (a : Action) (n : Nat) (v : Val) (row : List Bool) (hk : a.kind = .int (some n)) (hs : a.size = 1)
    (hv : InSpace a v) (hp : Plain a) (hr : ∃ k : Nat, row[k]? = some true) (h : ¬Allowed row v) :
    independentAct ⟨true, true⟩ 1 a (.fill v) [row] = .ok [v] ∧ act ⟨true, true⟩ 1 a (.fill v) [row] = .error .mask := by
  have hmk : maskOk ⟨true, true⟩ a [row] = true := maskOk_of (fun _ _ r hr' => by rw [List.mem_singleton.1 hr']; exact hr)
  have hex : execute 1 a (.fill v) [row] = .ok [v] := by
    unfold execute
    dsimp only
    rw [hs]
    rfl
  unfold independentAct act
  rw [hmk, if_neg (by simp), if_neg (by simp), hex]
  refine ⟨rfl, ?_⟩
  dsimp only
  unfold afterOk
  obtain ⟨h1, h2⟩ := of_inSpace hp hv
  have hin : [v].all (inSpace a) = true := by
    show (inSpace a v && true) = true
    unfold inSpace
    rw [h1, h2]
    rfl
  have hna : allowed row v = false := by
    rw [Bool.eq_false_iff]
    exact fun h' => h (allowed_iff.1 h')
  rw [if_neg (by simp), hin, if_neg (by simp), hasMask_iff.2 ⟨rfl, n, hk⟩]
  rw [if_pos]
  show (true && !(allowed row v && true)) = true
  rw [hna]
  rfl

/-- Three actions, one with a given value; two time steps. -/
example : let a : Action := ⟨.int (some 3), some (.num 0), some (.num 2), 1⟩
    let b : Action := ⟨.float, none, some (.num 5), 2⟩
    create ⟨true, true⟩ [("a", a), ("b", b), ("c", ⟨.bool, none, none, 1⟩)] (some [("b", .int 4)]) =
      .ok [(a, .first 3), (b, .fill (.float 4)), (⟨.bool, none, none, 1⟩, .fill (.bool false))] ∧
    act ⟨true, true⟩ 2 a (.first 3) [[false, true, true], [false, false, true]] = .ok [.int 1, .int 2] ∧
    act ⟨true, true⟩ 2 b (.fill (.float 4)) [] = .ok [.float 4, .float 4, .float 4, .float 4] ∧ Valid a ∧ Plain a := by
  intro a b
  refine ⟨by decide +kernel, by decide +kernel, by decide +kernel, ⟨?_, nofun, ?_, ?_, nofun⟩, nofun, nofun⟩
  · intro l h hl hh
    cases hl
    cases hh
    norm_num
  · intro n _ b x hb e
    rcases hb with rfl | rfl
    · cases e; exact ⟨0, by norm_num⟩
    · cases e; exact ⟨2, by norm_num⟩
  · intro n hn _
    cases hn
    exact ⟨rfl, by norm_num [a]⟩

/-- A value that cannot be converted, and negative fractions. -/
example : create ⟨true, true⟩ [("a", ⟨.bool, none, none, 1⟩)] (some [("a", .other)]) = .error .conversion ∧
    TowardZero (-5 / 2) (-2) ∧ create ⟨false, true⟩ [("a", ⟨.int none, none, none, 1⟩)] (some [("a", .float (-5 / 2))]) =
      .ok [(⟨.int none, none, none, 1⟩, .fill (.int (-2)))] := by
  refine ⟨by decide +kernel, ⟨fun h => ?_, fun _ => ?_⟩, by decide +kernel⟩ <;> norm_num at *

/-- A value out of bounds, and a mask that allows nothing. -/
example : create ⟨true, true⟩ [("a", ⟨.float, some (.num 0), none, 1⟩)] (some [("a", .int (-1))]) = .error .value ∧
    act ⟨true, true⟩ 1 ⟨.int (some 2), some (.num 0), some (.num 1), 1⟩ (.first 2) [[false, false]] = .error .noneValid := by
  refine ⟨by decide +kernel, by decide +kernel⟩

end Verif.Props.Constant
