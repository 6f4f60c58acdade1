import Verif.Const.Spec
import Mathlib.Tactic.Linarith
import Mathlib.Tactic.Ring
import Mathlib.Tactic.NormNum

/-!
# The constant agent: lemmas
-/

namespace Verif.Const

theorem lookup_entry {α : Type} {l : List (String × α)} {name : String} {x : α} (h : Entry l name x) : l.lookup name = some x := by
  obtain ⟨s, t, rfl, hs⟩ := h
  induction s with
  | nil => rw [List.nil_append, List.lookup_cons, BEq.rfl]
  | cons e s ih =>
    rw [List.cons_append, List.lookup_cons]
    have : (name == e.1) = false := by
      rw [beq_eq_false_iff_ne]
      exact fun h => hs e List.mem_cons_self h.symm
    rw [this]
    exact ih (fun e he => hs e (List.mem_cons_of_mem _ he))

theorem lookup_absent {α : Type} {l : List (String × α)} {name : String} (h : Absent l name) : l.lookup name = none := by
  induction l with
  | nil => rfl
  | cons e l ih =>
    rw [List.lookup_cons]
    have : (name == e.1) = false := by
      rw [beq_eq_false_iff_ne]
      exact fun h' => h e List.mem_cons_self h'.symm
    rw [this]
    exact ih (fun e he => h e (List.mem_cons_of_mem _ he))

theorem toward_zero {x : ℚ} {z : Int} (h : TowardZero x z) : (if 0 ≤ x then ⌊x⌋ else ⌈x⌉) = z := by
  split
  · rename_i hx
    exact Int.floor_eq_iff.2 (h.1 hx)
  · rename_i hx
    obtain ⟨h1, h2⟩ := h.2 (not_le.1 hx)
    exact Int.ceil_eq_iff.2 ⟨h2, h1⟩

/-- The conversion. -/
theorem convert_to {kind : Kind} {g : Given} {v : Val} (h : Converted kind g v) : convert kind g = some v := by
  cases h with
  | bool b => rfl
  | boolInt z hz => exact congrArg (fun b => some (Val.bool b)) (decide_eq_true hz)
  | boolZero => rfl
  | boolFloat x hx => exact congrArg (fun b => some (Val.bool b)) (decide_eq_true hx)
  | boolFloatZero => rfl
  | int n z => rfl
  | intTrue n => rfl
  | intFalse n => rfl
  | intFloat n x z hz => exact congrArg (fun b => some (Val.int b)) (toward_zero hz)
  | float x => rfl
  | floatInt z => rfl
  | floatTrue => rfl
  | floatFalse => rfl

theorem convert_fits {kind : Kind} {g : Given} {v : Val} (h : convert kind g = some v) : Fits kind v := by
  unfold convert at h
  cases kind with
  | bool =>
    obtain ⟨b, _, rfl⟩ := Option.map_eq_some_iff.1 h
    rfl
  | int n =>
    obtain ⟨z, _, rfl⟩ := Option.map_eq_some_iff.1 h
    exact ⟨n, rfl⟩
  | float =>
    obtain ⟨x, _, rfl⟩ := Option.map_eq_some_iff.1 h
    rfl

theorem below_false {v : Val} {b : Option Bound} : below v b = some false ↔
    (∀ x, Numeric v x → b ≠ some .array ∧ ∀ l, b = some (.num l) → l ≤ x) := by
  unfold below
  cases v with
  | bool c => exact ⟨fun _ x hx => (nomatch hx), fun _ => rfl⟩
  | int z =>
    rcases b with _ | b
    · exact ⟨fun _ x _ => ⟨nofun, nofun⟩, fun _ => rfl⟩
    · cases b with
      | array => exact ⟨nofun, fun h => absurd rfl (h _ (.int z)).1⟩
      | num l =>
        constructor
        · intro h x hx
          cases hx
          refine ⟨nofun, fun l' e => ?_⟩
          cases e
          exact not_lt.1 (of_decide_eq_false (Option.some.inj h))
        · intro h
          exact congrArg some (decide_eq_false (not_lt.2 ((h _ (.int z)).2 l rfl)))
  | float y =>
    rcases b with _ | b
    · exact ⟨fun _ x _ => ⟨nofun, nofun⟩, fun _ => rfl⟩
    · cases b with
      | array => exact ⟨nofun, fun h => absurd rfl (h _ (.float y)).1⟩
      | num l =>
        constructor
        · intro h x hx
          cases hx
          refine ⟨nofun, fun l' e => ?_⟩
          cases e
          exact not_lt.1 (of_decide_eq_false (Option.some.inj h))
        · intro h
          exact congrArg some (decide_eq_false (not_lt.2 ((h _ (.float y)).2 l rfl)))

theorem above_false {v : Val} {b : Option Bound} : above v b = some false ↔
    (∀ x, Numeric v x → b ≠ some .array ∧ ∀ h, b = some (.num h) → x ≤ h) := by
  unfold above
  cases v with
  | bool c => exact ⟨fun _ x hx => (nomatch hx), fun _ => rfl⟩
  | int z =>
    rcases b with _ | b
    · exact ⟨fun _ x _ => ⟨nofun, nofun⟩, fun _ => rfl⟩
    · cases b with
      | array => exact ⟨nofun, fun h => absurd rfl (h _ (.int z)).1⟩
      | num l =>
        constructor
        · intro h x hx
          cases hx
          refine ⟨nofun, fun l' e => ?_⟩
          cases e
          exact not_lt.1 (of_decide_eq_false (Option.some.inj h))
        · intro h
          exact congrArg some (decide_eq_false (not_lt.2 ((h _ (.int z)).2 l rfl)))
  | float y =>
    rcases b with _ | b
    · exact ⟨fun _ x _ => ⟨nofun, nofun⟩, fun _ => rfl⟩
    · cases b with
      | array => exact ⟨nofun, fun h => absurd rfl (h _ (.float y)).1⟩
      | num l =>
        constructor
        · intro h x hx
          cases hx
          refine ⟨nofun, fun l' e => ?_⟩
          cases e
          exact not_lt.1 (of_decide_eq_false (Option.some.inj h))
        · intro h
          exact congrArg some (decide_eq_false (not_lt.2 ((h _ (.float y)).2 l rfl)))

theorem checkGiven_inv {a : Action} {g : Given} {v : Val} (h : checkGiven a g = .ok v) :
    convert a.kind g = some v ∧ below v a.lo = some false ∧ above v a.hi = some false := by
  unfold checkGiven at h
  cases hc : convert a.kind g with
  | none => rw [hc] at h; cases h
  | some w =>
    rw [hc] at h
    change (match below w a.lo with | none => _ | some true => _ | some false => _) = _ at h
    rcases hb : below w a.lo with _ | b
    · rw [hb] at h; cases h
    · cases b with
      | true => rw [hb] at h; cases h
      | false =>
        rw [hb] at h
        change (match above w a.hi with | none => _ | some true => _ | some false => _) = _ at h
        rcases ha : above w a.hi with _ | b
        · rw [ha] at h; cases h
        · cases b with
          | true => rw [ha] at h; cases h
          | false =>
            rw [ha] at h
            have : w = v := Except.ok.inj h
            subst this
            exact ⟨rfl, hb, ha⟩

theorem checkGiven_ok {a : Action} {g : Given} {v : Val} (h : convert a.kind g = some v) (hb : below v a.lo = some false)
    (ha : above v a.hi = some false) : checkGiven a g = .ok v := by
  unfold checkGiven
  rw [h]
  show (match below v a.lo with | none => _ | some true => _ | some false => _) = _
  rw [hb]
  show (match above v a.hi with | none => _ | some true => _ | some false => _) = _
  rw [ha]

theorem inSpace_of {a : Action} {v : Val} (hf : Fits a.kind v) (hb : below v a.lo = some false) (ha : above v a.hi = some false) : InSpace a v :=
  ⟨hf, fun x hx => ⟨(below_false.1 hb x hx).2, (above_false.1 ha x hx).2⟩⟩

theorem of_inSpace {a : Action} {v : Val} (hp : Plain a) (h : InSpace a v) : below v a.lo = some false ∧ above v a.hi = some false :=
  ⟨below_false.2 (fun x hx => ⟨hp.1, (h.2 x hx).1⟩), above_false.2 (fun x hx => ⟨hp.2, (h.2 x hx).2⟩)⟩

/-- Names of the values are names of actions. -/
theorem givenValues_sub {given : List (String × Given)} {actions : List (String × Action)} {values : List (String × Val)}
    (h : givenValues given actions = .ok values) {name : String} (hn : Absent actions name) : Absent values name := by
  induction actions generalizing values with
  | nil => cases h; exact nofun
  | cons e rest ih =>
    obtain ⟨nm, a⟩ := e
    have hr : Absent rest name := fun e he => hn e (List.mem_cons_of_mem _ he)
    unfold givenValues at h
    cases hl : given.lookup nm with
    | none => rw [hl] at h; exact ih h hr
    | some g =>
      rw [hl] at h
      dsimp only at h
      cases hc : checkGiven a g with
      | error e => rw [hc] at h; cases h
      | ok v =>
        rw [hc] at h
        dsimp only at h
        cases hg : givenValues given rest with
        | error e => rw [hg] at h; cases h
        | ok vs =>
          rw [hg] at h
          cases h
          intro e he
          rcases List.mem_cons.1 he with rfl | he
          · exact hn _ List.mem_cons_self
          · exact ih hg hr e he

/-- The value of an action, if one is given. -/
theorem givenValues_lookup {given : List (String × Given)} {actions : List (String × Action)} {values : List (String × Val)}
    (h : givenValues given actions = .ok values) (hn : (actions.map (·.1)).Nodup) {name : String} {a : Action} (hm : (name, a) ∈ actions) :
    match given.lookup name with
    | none => values.lookup name = none
    | some g => ∃ v, checkGiven a g = .ok v ∧ values.lookup name = some v := by
  induction actions generalizing values with
  | nil => cases hm
  | cons e rest ih =>
    obtain ⟨nm, b⟩ := e
    obtain ⟨hnm, hrest⟩ := List.nodup_cons.1 (show ((nm :: rest.map (·.1))).Nodup from hn)
    have habs : Absent rest nm := fun e he h' => hnm (h' ▸ List.mem_map_of_mem he)
    unfold givenValues at h
    by_cases hnn : nm = name
    · subst hnn
      have hab : b = a := by
        rcases List.mem_cons.1 hm with e | hm
        · exact (Prod.mk.inj e).2.symm
        · exact absurd (List.mem_map_of_mem (f := (·.1)) hm) hnm
      subst hab
      cases hl : given.lookup nm with
      | none =>
        rw [hl] at h
        exact lookup_absent (givenValues_sub h habs)
      | some g =>
        rw [hl] at h
        dsimp only at h
        cases hc : checkGiven b g with
        | error e => rw [hc] at h; cases h
        | ok v =>
          rw [hc] at h
          dsimp only at h
          cases hg : givenValues given rest with
          | error e => rw [hg] at h; cases h
          | ok vs =>
            rw [hg] at h
            cases h
            refine ⟨v, hc, ?_⟩
            rw [List.lookup_cons, BEq.rfl]
    · have hm : (name, a) ∈ rest := by
        rcases List.mem_cons.1 hm with e | hm
        · exact absurd (Prod.mk.inj e).1.symm hnn
        · exact hm
      cases hl : given.lookup nm with
      | none => rw [hl] at h; exact ih h hrest hm
      | some g =>
        rw [hl] at h
        dsimp only at h
        cases hc : checkGiven b g with
        | error e => rw [hc] at h; cases h
        | ok v =>
          rw [hc] at h
          dsimp only at h
          cases hg : givenValues given rest with
          | error e => rw [hg] at h; cases h
          | ok vs =>
            rw [hg] at h
            cases h
            have hb : (name == nm) = false := by
              rw [beq_eq_false_iff_ne]
              exact fun h => hnn h.symm
            have e : ∀ w, ((nm, w) :: vs).lookup name = vs.lookup name := fun w => by rw [List.lookup_cons, hb]
            have := ih hg hrest hm
            rw [e]
            exact this

theorem givenValues_ok {given : List (String × Given)} {actions : List (String × Action)}
    (h : ∀ name a, (name, a) ∈ actions → ∀ g, given.lookup name = some g → ∃ v, checkGiven a g = .ok v) :
    ∃ values, givenValues given actions = .ok values := by
  induction actions with
  | nil => exact ⟨_, rfl⟩
  | cons e rest ih =>
    obtain ⟨nm, a⟩ := e
    obtain ⟨vs, hvs⟩ := ih (fun n b hm => h n b (List.mem_cons_of_mem _ hm))
    unfold givenValues
    cases hl : given.lookup nm with
    | none => exact ⟨vs, hvs⟩
    | some g =>
      obtain ⟨v, hv⟩ := h nm a List.mem_cons_self g hl
      dsimp only
      rw [hv, hvs]
      exact ⟨_, rfl⟩

theorem plans_get {c : Config} {values : List (String × Val)} {actions : List (String × Action)} {ps : List (Action × Plan)}
    (h : plans c values actions = .ok ps) :
    ps.map (·.1) = actions.map (·.2) ∧ ∀ (i : Nat) name a p, actions[i]? = some (name, a) → ps[i]? = some (a, p) →
      maskExists c a = true ∧ plan c a (values.lookup name) = .ok p := by
  induction actions generalizing ps with
  | nil => cases h; exact ⟨rfl, fun i _ _ _ h _ => (by rw [List.getElem?_nil] at h; cases h)⟩
  | cons e rest ih =>
    obtain ⟨nm, b⟩ := e
    unfold plans at h
    cases hk : maskExists c b with
    | false => rw [hk] at h; cases h
    | true =>
      rw [hk, if_neg (by simp)] at h
      cases hp : plan c b (values.lookup nm) with
      | error e => rw [hp] at h; cases h
      | ok q =>
        rw [hp] at h
        dsimp only at h
        cases hr : plans c values rest with
        | error e => rw [hr] at h; cases h
        | ok qs =>
          rw [hr] at h
          cases h
          obtain ⟨h1, h2⟩ := ih hr
          refine ⟨by rw [List.map_cons, List.map_cons, h1], fun i name a p ha hi => ?_⟩
          cases i with
          | zero =>
            rw [List.getElem?_cons_zero] at ha hi
            cases ha
            cases hi
            exact ⟨hk, hp⟩
          | succ i =>
            rw [List.getElem?_cons_succ] at ha hi
            exact h2 i name a p ha hi

theorem plans_ok {c : Config} {values : List (String × Val)} {actions : List (String × Action)}
    (h : ∀ name a, (name, a) ∈ actions → maskExists c a = true ∧ ∃ p, plan c a (values.lookup name) = .ok p) :
    ∃ ps, plans c values actions = .ok ps := by
  induction actions with
  | nil => exact ⟨_, rfl⟩
  | cons e rest ih =>
    obtain ⟨nm, a⟩ := e
    obtain ⟨ps, hps⟩ := ih (fun n b hm => h n b (List.mem_cons_of_mem _ hm))
    obtain ⟨h1, p, h2⟩ := h nm a List.mem_cons_self
    unfold plans
    rw [h1, if_neg (by simp), h2]
    dsimp only
    rw [hps]
    exact ⟨_, rfl⟩

/-- The plan of an action of a created agent, with and without given value. -/
theorem created_plan {c : Config} {actions : List (String × Action)} {given : Option (List (String × Given))} {ps : List (Action × Plan)}
    (h : create c actions given = .ok ps) (hn : (actions.map (·.1)).Nodup) {i : Nat} {name : String} {a : Action} {p : Plan}
    (ha : actions[i]? = some (name, a)) (hp : ps[i]? = some (a, p)) :
    (∀ g, (given.getD []).lookup name = some g → ∃ v, checkGiven a g = .ok v ∧ p = .fill v) ∧
    ((given.getD []).lookup name = none → plan c a none = .ok p) := by
  unfold create at h
  cases hg : givenValues (given.getD []) actions with
  | error e => rw [hg] at h; cases h
  | ok values =>
    rw [hg] at h
    obtain ⟨_, hpl⟩ := (plans_get h).2 i name a p ha hp
    have hl := givenValues_lookup hg hn (List.mem_of_getElem? ha)
    constructor
    · intro g hgl
      rw [hgl] at hl
      obtain ⟨v, h1, h2⟩ := hl
      rw [h2] at hpl
      exact ⟨v, h1, (Except.ok.inj hpl).symm⟩
    · intro hgl
      rw [hgl] at hl
      have hl : values.lookup name = none := hl
      rwa [hl] at hpl

/-- The default without mask. -/
theorem planBounds_default {a : Action} {p : Plan} (hv : Valid a) (h : planBounds a = .ok p) : ∃ v, p = .fill v ∧ Default a v := by
  unfold planBounds at h
  have hint : ∀ n, a.kind = .int n → ∀ b x, (b = a.lo ∨ b = a.hi) → b = some (.num x) → Numeric (.int ⌊x⌋) x := by
    intro n hn b x hb e
    obtain ⟨z, rfl⟩ := hv.int n hn b x hb e
    rw [Int.floor_intCast]
    exact .int z
  cases hk : a.kind with
  | bool =>
    rw [hk] at h
    exact ⟨_, (Except.ok.inj h).symm, .bool hk⟩
  | int n =>
    rw [hk] at h
    dsimp only at h
    rcases hlo : a.lo with _ | l
    · rw [hlo] at h
      dsimp only at h
      rcases hhi : a.hi with _ | u
      · rw [hhi] at h
        exact ⟨_, (Except.ok.inj h).symm, .zero (by rw [hk]; nofun) hlo hhi (by rw [hk]; exact .int n)⟩
      · rw [hhi] at h
        cases u with
        | array => cases h
        | num x => exact ⟨_, (Except.ok.inj h).symm, .upper hlo hhi ⟨n, hk⟩ (hint n hk _ x (Or.inr rfl) hhi)⟩
    · rw [hlo] at h
      dsimp only at h
      rcases hhi : a.hi with _ | u
      · rw [hhi] at h
        cases l with
        | array => cases h
        | num x => exact ⟨_, (Except.ok.inj h).symm, .lower hlo hhi ⟨n, hk⟩ (hint n hk _ x (Or.inl rfl) hlo)⟩
      · rw [hhi] at h
        cases h
  | float =>
    rw [hk] at h
    dsimp only at h
    rcases hlo : a.lo with _ | l
    · rw [hlo] at h
      dsimp only at h
      rcases hhi : a.hi with _ | u
      · rw [hhi] at h
        exact ⟨_, (Except.ok.inj h).symm, .zero (by rw [hk]; nofun) hlo hhi (by rw [hk]; exact .float)⟩
      · rw [hhi] at h
        cases u with
        | array => cases h
        | num x => exact ⟨_, (Except.ok.inj h).symm, .upper hlo hhi hk (.float x)⟩
    · rw [hlo] at h
      dsimp only at h
      rcases hhi : a.hi with _ | u
      · rw [hhi] at h
        cases l with
        | array => cases h
        | num x => exact ⟨_, (Except.ok.inj h).symm, .lower hlo hhi hk (.float x)⟩
      · rw [hhi] at h
        cases l with
        | array => cases h
        | num x =>
          cases u with
          | array => cases h
          | num y => exact ⟨_, (Except.ok.inj h).symm, .middle hk hlo hhi (by ring)⟩

/-- The default is in the space of the action. -/
theorem default_space {a : Action} {v : Val} (hv : Valid a) (h : Default a v) : InSpace a v := by
  cases h with
  | bool hk => exact ⟨hk, fun x hx => (nomatch hx)⟩
  | zero hk hlo hhi hd =>
    refine ⟨?_, fun x _ => ⟨fun l e => (by rw [hlo] at e; cases e), fun l e => (by rw [hhi] at e; cases e)⟩⟩
    generalize a.kind = k at hd
    cases hd with
    | bool => rfl
    | int n => exact ⟨n, rfl⟩
    | float => rfl
  | lower hlo hhi hf hnum =>
    refine ⟨hf, fun x hx => ⟨fun l e => ?_, fun l e => (by rw [hhi] at e; cases e)⟩⟩
    rw [hlo] at e
    cases e
    cases hnum <;> cases hx <;> exact le_refl _
  | upper hlo hhi hf hnum =>
    refine ⟨hf, fun x hx => ⟨fun l e => (by rw [hlo] at e; cases e), fun l e => ?_⟩⟩
    rw [hhi] at e
    cases e
    cases hnum <;> cases hx <;> exact le_refl _
  | middle hk hlo hhi hm =>
    have ho := hv.order _ _ hlo hhi
    refine ⟨hk, fun x hx => ⟨fun l e => ?_, fun l e => ?_⟩⟩
    · rw [hlo] at e
      cases e
      cases hx
      linarith
    · rw [hhi] at e
      cases e
      cases hx
      linarith

theorem planBounds_plain {a : Action} {p : Plan} (h : planBounds a = .ok p) (hk : a.kind ≠ .bool) : Plain a := by
  unfold planBounds at h
  cases hkk : a.kind with
  | bool => exact absurd hkk hk
  | int n =>
    rw [hkk] at h
    dsimp only at h
    rcases hlo : a.lo with _ | l <;> rcases hhi : a.hi with _ | u <;> rw [hlo, hhi] at h <;> dsimp only at h
    · exact ⟨by rw [hlo]; nofun, by rw [hhi]; nofun⟩
    · cases u with
      | array => cases h
      | num x => exact ⟨by rw [hlo]; nofun, by rw [hhi]; nofun⟩
    · cases l with
      | array => cases h
      | num x => exact ⟨by rw [hlo]; nofun, by rw [hhi]; nofun⟩
    · cases h
  | float =>
    rw [hkk] at h
    dsimp only at h
    rcases hlo : a.lo with _ | l <;> rcases hhi : a.hi with _ | u <;> rw [hlo, hhi] at h <;> dsimp only at h
    · exact ⟨by rw [hlo]; nofun, by rw [hhi]; nofun⟩
    · cases u with
      | array => cases h
      | num x => exact ⟨by rw [hlo]; nofun, by rw [hhi]; nofun⟩
    · cases l with
      | array => cases h
      | num x => exact ⟨by rw [hlo]; nofun, by rw [hhi]; nofun⟩
    · cases l with
      | array => cases h
      | num x =>
        cases u with
        | array => cases h
        | num y => exact ⟨by rw [hlo]; nofun, by rw [hhi]; nofun⟩

/-! ## First valid option -/

theorem filter_zip_length (n : Nat) (row : List Bool) (s : Nat) (h : row.length = n) :
    ((((List.range' s n).zip row).filter (·.2)).map (·.1)).length = row.count true := by
  induction row generalizing n s with
  | nil => rw [List.zip_nil_right]; rfl
  | cons b row ih =>
    cases n with
    | zero => cases h
    | succ n =>
      have h' : row.length = n := Nat.succ.inj h
      rw [List.range'_succ, List.zip_cons_cons]
      cases b with
      | true =>
        rw [List.filter_cons_of_pos (by rfl), List.map_cons, List.length_cons, ih n (s + 1) h', List.count_cons_self]
      | false =>
        rw [List.filter_cons_of_neg (by simp), ih n (s + 1) h', List.count_cons_of_ne (by simp)]

theorem filter_zip_head (n : Nat) (row : List Bool) (s k : Nat) (h : row.length = n) (hl : Least row k) :
    ((((List.range' s n).zip row).filter (·.2)).map (·.1))[0]? = some (s + k) := by
  induction row generalizing n s k with
  | nil => obtain ⟨h1, _⟩ := hl; rw [List.getElem?_nil] at h1; cases h1
  | cons b row ih =>
    cases n with
    | zero => cases h
    | succ n =>
      have h' : row.length = n := Nat.succ.inj h
      rw [List.range'_succ, List.zip_cons_cons]
      cases b with
      | true =>
        rw [List.filter_cons_of_pos (by rfl), List.map_cons, List.getElem?_cons_zero]
        cases k with
        | zero => rfl
        | succ k => exact absurd List.getElem?_cons_zero (hl.2 0 (by omega))
      | false =>
        rw [List.filter_cons_of_neg (by simp)]
        cases k with
        | zero => obtain ⟨h1, _⟩ := hl; rw [List.getElem?_cons_zero] at h1; cases h1
        | succ k =>
          have := ih n (s + 1) k h' ⟨by have := hl.1; rwa [List.getElem?_cons_succ] at this, fun j hj => by
            have := hl.2 (j + 1) (by omega); rwa [List.getElem?_cons_succ] at this⟩
          rw [this]
          congr 1
          omega

theorem least_exists {row : List Bool} (h : ∃ k : Nat, row[k]? = some true) : ∃ k, Least row k := by
  classical
  exact ⟨Nat.find h, Nat.find_spec h, fun j hj => Nat.find_min h hj⟩

theorem count_pos {row : List Bool} {k : Nat} (h : row[k]? = some true) : 0 < row.count true :=
  List.count_pos_iff.2 (List.mem_of_getElem? h)

/-- Gathering at the offsets gives the first valid option of each row. -/
theorem gather_first (n : Nat) (mask : List (List Bool)) (pre : List Nat) (hlen : ∀ row ∈ mask, row.length = n)
    (hv : ∀ row ∈ mask, ∃ k : Nat, row[k]? = some true) : ∃ xs, gather (pre ++ choices n mask) (offsets pre.length (numValid mask)) = some xs ∧
      xs.length = mask.length ∧ ∀ (i : Nat) row x, mask[i]? = some row → xs[i]? = some x → Least row x := by
  induction mask generalizing pre with
  | nil => exact ⟨[], rfl, rfl, fun i _ _ h _ => (by rw [List.getElem?_nil] at h; cases h)⟩
  | cons row mask ih =>
    have hl := hlen row List.mem_cons_self
    obtain ⟨k, hk⟩ := least_exists (hv row List.mem_cons_self)
    have hseg := filter_zip_head n row 0 k hl hk
    have hcnt := filter_zip_length n row 0 hl
    rw [← List.range_eq_range'] at hseg hcnt
    rw [Nat.zero_add] at hseg
    obtain ⟨xs, h1, h2, h3⟩ := ih (pre ++ (((List.range n).zip row).filter (·.2)).map (·.1)) (fun r hr => hlen r (List.mem_cons_of_mem _ hr))
      (fun r hr => hv r (List.mem_cons_of_mem _ hr))
    rw [List.length_append, hcnt, List.append_assoc] at h1
    refine ⟨k :: xs, ?_, by rw [List.length_cons, List.length_cons, h2], fun i r x hr hx => ?_⟩
    · show gather (pre ++ ((((List.range n).zip row).filter (·.2)).map (·.1) ++ choices n mask))
        (pre.length :: offsets (pre.length + row.count true) (numValid mask)) = _
      unfold gather
      have hg : (pre ++ ((((List.range n).zip row).filter (·.2)).map (·.1) ++ choices n mask))[pre.length]? = some k := by
        rw [List.getElem?_append_right (Nat.le_refl _), Nat.sub_self, List.getElem?_append_left, hseg]
        rw [hcnt]
        exact count_pos hk.1
      rw [hg, h1]
    · cases i with
      | zero =>
        rw [List.getElem?_cons_zero] at hr hx
        cases hr
        cases hx
        exact hk
      | succ i =>
        rw [List.getElem?_cons_succ] at hr hx
        exact h3 i r x hr hx

/-! ## Acting -/

theorem hasMask_iff {c : Config} {a : Action} : hasMask c a = true ↔ Masked c a := by
  unfold hasMask Masked
  cases hk : a.kind with
  | bool => exact ⟨nofun, fun h => (nomatch h.2)⟩
  | float => exact ⟨nofun, fun h => (nomatch h.2)⟩
  | int n =>
    cases n with
    | none => exact ⟨nofun, fun ⟨_, n, h⟩ => (nomatch h)⟩
    | some n => exact ⟨fun h => ⟨h, n, rfl⟩, fun h => h.1⟩

theorem any_iff {row : List Bool} : row.any id = true ↔ ∃ k : Nat, row[k]? = some true := by
  rw [List.any_eq_true]
  constructor
  · rintro ⟨b, hb, h⟩
    have : b = true := h
    subst this
    exact List.mem_iff_getElem?.1 hb
  · rintro ⟨k, hk⟩
    exact ⟨true, List.mem_of_getElem? hk, rfl⟩

theorem maskOk_of {c : Config} {a : Action} {mask : List (List Bool)}
    (h : c.assertions = true → Masked c a → ∀ row ∈ mask, ∃ k : Nat, row[k]? = some true) : maskOk c a mask = true := by
  unfold maskOk
  split
  · rename_i hc
    rw [Bool.and_eq_true] at hc
    rw [List.all_eq_true]
    exact fun row hr => any_iff.2 (h hc.1 (hasMask_iff.1 hc.2) row hr)
  · rfl

theorem maskOk_not {c : Config} {a : Action} {mask : List (List Bool)} (hc : c.assertions = true) (hm : Masked c a) {row : List Bool}
    (hr : row ∈ mask) (h : ∀ k : Nat, row[k]? ≠ some true) : maskOk c a mask = false := by
  unfold maskOk
  rw [if_pos (by rw [hc, hasMask_iff.2 hm]; rfl)]
  rw [Bool.eq_false_iff]
  intro hall
  obtain ⟨k, hk⟩ := any_iff.1 (List.all_eq_true.1 hall row hr)
  exact h k hk

theorem allowed_iff {row : List Bool} {v : Val} : allowed row v = true ↔ Allowed row v := by
  unfold allowed Allowed
  cases v with
  | bool b => exact ⟨nofun, fun ⟨k, h, _⟩ => (nomatch h)⟩
  | float x => exact ⟨nofun, fun ⟨k, h, _⟩ => (nomatch h)⟩
  | int z =>
    dsimp only
    constructor
    · intro h
      split at h
      · rename_i hz
        refine ⟨z.toNat, by rw [Int.toNat_of_nonneg hz], ?_⟩
        rw [List.getD_eq_getElem?_getD] at h
        cases hg : row[z.toNat]? with
        | none => rw [hg] at h; cases h
        | some b => rw [hg] at h; exact congrArg some h
      · cases h
    · rintro ⟨k, h, hk⟩
      cases h
      rw [if_pos (Int.natCast_nonneg k), Int.toNat_natCast, List.getD_eq_getElem?_getD, hk]
      rfl

theorem afterOk_of {c : Config} {a : Action} {mask : List (List Bool)} {vs : List Val}
    (hs : c.assertions = true → ∀ v ∈ vs, below v a.lo = some false ∧ above v a.hi = some false)
    (hm : c.assertions = true → Masked c a → ∀ (i : Nat) row v, mask[i]? = some row → vs[i]? = some v → Allowed row v) :
    afterOk c a mask vs = .ok vs := by
  unfold afterOk
  cases hc : c.assertions with
  | false => rfl
  | true =>
    rw [if_neg (by simp)]
    have h1 : vs.all (inSpace a) = true := by
      rw [List.all_eq_true]
      intro v hv
      obtain ⟨h1, h2⟩ := hs hc v hv
      unfold inSpace
      rw [h1, h2]
      rfl
    rw [h1, if_neg (by simp)]
    cases hh : hasMask c a with
    | false => rfl
    | true =>
      have h2 : (mask.zip vs).all (fun e => allowed e.1 e.2) = true := by
        rw [List.all_eq_true]
        rintro ⟨row, v⟩ he
        obtain ⟨i, hi⟩ := List.mem_iff_getElem?.1 he
        obtain ⟨h1, h2⟩ := List.getElem?_zip_eq_some.1 hi
        exact allowed_iff.2 (hm hc (hasMask_iff.1 hh) i row v h1 h2)
      rw [h2]
      rfl

theorem afterOk_inv {c : Config} {a : Action} {mask : List (List Bool)} {vs ws : List Val} (h : afterOk c a mask vs = .ok ws) : ws = vs := by
  unfold afterOk at h
  split at h
  · exact (Except.ok.inj h).symm
  · split at h
    · cases h
    · split at h
      · cases h
      · exact (Except.ok.inj h).symm

theorem act_independent {c : Config} {batch : Nat} {a : Action} {p : Plan} {mask : List (List Bool)} {vs : List Val}
    (h : act c batch a p mask = .ok vs) : independentAct c batch a p mask = .ok vs := by
  unfold act at h
  unfold independentAct
  split at h
  · cases h
  · rename_i hm
    rw [if_neg hm]
    cases he : execute batch a p mask with
    | error e => rw [he] at h; cases h
    | ok ws => rw [he] at h; rw [afterOk_inv h]

theorem gather_none (params : List Nat) (l : List Nat) (i : Nat) (hi : i ∈ l) (h : params.length ≤ i) : gather params l = none := by
  induction l with
  | nil => cases hi
  | cons j l ih =>
    unfold gather
    rcases List.mem_cons.1 hi with rfl | hi
    · rw [List.getElem?_eq_none h]
    · cases params[j]? with
      | none => rfl
      | some x =>
        dsimp only
        rw [ih hi]

theorem choices_row (n : Nat) (row : List Bool) (h : row.length = n) : ((((List.range n).zip row).filter (·.2)).map (·.1)).length = row.count true := by
  subst h
  rw [List.length_map]
  have : ∀ (k : Nat) (r : List Bool), (((List.range' k r.length).zip r).filter (·.2)).length = r.count true := by
    intro k r
    induction r generalizing k with
    | nil => rfl
    | cons b r ih =>
      rw [List.length_cons, List.range'_succ, List.zip_cons_cons]
      cases b with
      | true => rw [List.filter_cons_of_pos rfl, List.length_cons, ih, List.count_cons_self]
      | false => rw [List.filter_cons_of_neg (by simp), ih, List.count_cons_of_ne (by simp)]
  rw [List.range_eq_range']
  exact this 0 row

theorem choices_length (n : Nat) (mask : List (List Bool)) (h : ∀ row ∈ mask, row.length = n) : (choices n mask).length = (numValid mask).sum := by
  induction mask with
  | nil => rfl
  | cons row rows ih =>
    show (_ ++ choices n rows).length = (row.count true :: numValid rows).sum
    rw [List.length_append, choices_row n row (h row List.mem_cons_self), ih (fun r hr => h r (List.mem_cons_of_mem _ hr)), List.sum_cons]

theorem offsets_last (acc k : Nat) (l : List Nat) : acc + l.sum ∈ offsets acc (l ++ [k]) := by
  induction l generalizing acc with
  | nil => exact List.mem_cons_self
  | cons n l ih =>
    rw [List.sum_cons, ← Nat.add_assoc]
    exact List.mem_cons_of_mem _ (ih _)

theorem gather_last (n : Nat) (rows : List (List Bool)) (row : List Bool) (h : ∀ r ∈ rows ++ [row], r.length = n) (hr : ∀ k : Nat, row[k]? ≠ some true) :
    gather (choices n (rows ++ [row])) (offsets 0 (numValid (rows ++ [row]))) = none := by
  have h0 : row.count true = 0 := List.count_eq_zero.2 (fun hm => by
    obtain ⟨k, hk⟩ := List.mem_iff_getElem?.1 hm
    exact hr k hk)
  have hv : numValid (rows ++ [row]) = numValid rows ++ [0] := by
    unfold numValid
    rw [List.map_append, List.map_singleton, h0]
  refine gather_none _ _ (0 + (numValid rows).sum) ?_ ?_
  · rw [hv]; exact offsets_last 0 0 _
  · rw [choices_length n _ h, hv]; simp

end Verif.Const
