import Verif.Act.RejectLemmas

/-!
# The argument `parallel` of `Agent.act` (C118)
-/

namespace Verif.Props.ActParallel

open Verif.Feed Verif.Act

/-- Calls with free interactions are accepted, the policy receives the indices, and exactly these interactions wait for `observe`. -/
theorem accepted_partial (spec : Spec) (net : Net) (flags : List Bool) (n : Nat) (states masks : Flat) (s : StatesIn) (form : Form)
    (l : List Int) (p : ParallelIn) (det : Bool) (hs : Separable spec) (hm : Match n spec.states states) (hg : GivenMasks spec n masks)
    (hgiven : Given n states masks s form) (hp : Indices n l p form) (hfree : Free flags l) (hnet : AnswersActions spec net n) :
    ∃ flags' r, act spec net flags { states := s, parallel := p, independent := false, deterministic := det } = (flags', .ok r) ∧
      Waiting flags flags' l ∧ r.call.parallel = l := by
  obtain ⟨r, h1, _, _, _, h5, _⟩ := act_training (flags := flags) det hs hm hg hgiven hp hfree hnet
  exact ⟨_, r, h1, mark_waiting (fun p hp => (hfree p hp).1), h5⟩

/-- If one of the interactions still waits for `observe`, the call is rejected and nothing changes. -/
theorem waiting_rejected (spec : Spec) (net : Net) (flags : List Bool) (n : Nat) (states masks : Flat) (s : StatesIn) (form : Form)
    (l : List Int) (p : ParallelIn) (det : Bool) (hs : Separable spec) (hm : Match n spec.states states) (hg : GivenMasks spec n masks)
    (hgiven : Given n states masks s form) (hp : Indices n l p form) (hl : ∀ q ∈ l, 0 ≤ q ∧ q < flags.length)
    (hw : ∃ q ∈ l, flags[q.toNat]? = some false) :
    act spec net flags { states := s, parallel := p, independent := false, deterministic := det } = (flags, .error .order) := by
  obtain ⟨f, hb, _⟩ := before_training (flags := flags) p det hs hm hg hgiven
  have h1 : form = .single → n = 1 := by
    intro h; subst h; exact given_single hs hm hg hgiven
  apply act_error
  have hne : l ≠ [] := by
    obtain ⟨q, hq, _⟩ := hw
    exact List.ne_nil_of_mem hq
  have hpos : positions flags.length l = .ok (l.map Int.toNat) := by
    unfold positions
    rw [if_neg (by simp [hne])]
    apply mapM_ok
    intro q hq
    rw [position, if_pos (hl q hq).1, if_pos (hl q hq).2]
  have hall : (l.map Int.toNat).all (fun p => flags.getD p false) = false := by
    obtain ⟨q, hq, hqf⟩ := hw
    rw [List.all_eq_false]
    refine ⟨q.toNat, List.mem_map.2 ⟨q, hq, rfl⟩, ?_⟩
    rw [List.getD_eq_getElem?_getD, hqf]
    exact Bool.false_ne_true
  show before spec flags ⟨s, .absent, p, false, det⟩ = _
  rw [hb, parallel_indices hp h1, bind_ok]
  show (positions flags.length l >>= _) = _
  rw [hpos, bind_ok, hall]
  rfl

/-- An index beyond the number of interactions is rejected and nothing changes. -/
theorem range_rejected (spec : Spec) (net : Net) (flags : List Bool) (n : Nat) (states masks : Flat) (s : StatesIn) (form : Form)
    (l : List Int) (p : ParallelIn) (det : Bool) (hs : Separable spec) (hm : Match n spec.states states) (hg : GivenMasks spec n masks)
    (hgiven : Given n states masks s form) (hp : Indices n l p form) (hw : ∃ q ∈ l, (flags.length : Int) ≤ q ∨ q < -(flags.length : Int)) :
    act spec net flags { states := s, parallel := p, independent := false, deterministic := det } = (flags, .error .index) := by
  obtain ⟨f, hb, _⟩ := before_training (flags := flags) p det hs hm hg hgiven
  have h1 : form = .single → n = 1 := by
    intro h; subst h; exact given_single hs hm hg hgiven
  apply act_error
  have hpos : positions flags.length l = .error .index := by
    unfold positions
    split
    · rfl
    · apply mapM_same (fun q _ e he => position_error he)
      obtain ⟨q, hq, hqr⟩ := hw
      refine ⟨q, hq, ?_⟩
      unfold position
      by_cases h0 : 0 ≤ q
      · rw [if_pos h0, if_neg (by omega)]
      · rw [if_neg h0, if_neg (by omega)]
  show before spec flags ⟨s, .absent, p, false, det⟩ = _
  rw [hb, parallel_indices hp h1, bind_ok]
  show (positions flags.length l >>= _) = _
  rw [hpos]
  rfl

/-- A list of another length than the number of time steps is rejected and nothing changes. -/
theorem length_rejected (spec : Spec) (net : Net) (flags : List Bool) (n : Nat) (states masks : Flat) (s : StatesIn) (form : Form)
    (l : List Int) (det : Bool) (hs : Separable spec) (hm : Match n spec.states states) (hg : GivenMasks spec n masks)
    (hgiven : Given n states masks s form) (hf : form ≠ .single) (hl : l.length ≠ n) :
    act spec net flags { states := s, parallel := .many l, independent := false, deterministic := det } = (flags, .error .value) := by
  obtain ⟨f, hb, _⟩ := before_training (flags := flags) (.many l) det hs hm hg hgiven
  apply act_error
  show before spec flags ⟨s, .absent, .many l, false, det⟩ = _
  have hpar : parallelArg ⟨f, form.batched, n, form.iter⟩ (.many l) = .error .value := by
    cases form with
    | single => exact absurd rfl hf
    | rows => show (if l.length = n then _ else _) = _; rw [if_neg hl]
    | columns => show (if l.length = n then _ else _) = _; rw [if_neg hl]
  rw [hb, hpar]
  rfl

/-- Several time steps with a number as index, as by default, are always rejected. -/
theorem default_violation (spec : Spec) (net : Net) (flags : List Bool) (n : Nat) (states masks : Flat) (s : StatesIn) (form : Form)
    (p : Int) (det : Bool) (hs : Separable spec) (hm : Match n spec.states states) (hg : GivenMasks spec n masks)
    (hgiven : Given n states masks s form) (hf : form ≠ .single) :
    act spec net flags { states := s, parallel := .one p, independent := false, deterministic := det } = (flags, .error .index) := by
  obtain ⟨f, hb, _⟩ := before_training (flags := flags) (.one p) det hs hm hg hgiven
  apply act_error
  show before spec flags ⟨s, .absent, .one p, false, det⟩ = _
  have hpar : parallelArg ⟨f, form.batched, n, form.iter⟩ (.one p) = .error .index := by
    cases form with
    | single => exact absurd rfl hf
    | rows => rfl
    | columns => rfl
  rw [hb, hpar]
  rfl

/-- A negative index is rejected, but the interaction counted from the end waits for `observe` afterwards. -/
theorem negative_violation (spec : Spec) (net : Net) (flags : List Bool) (states masks : Flat) (s : StatesIn)
    (q : Nat) (det : Bool) (hs : Separable spec) (hm : Match 1 spec.states states) (hg : GivenMasks spec 1 masks)
    (hgiven : Given 1 states masks s .single) (hq : flags[q]? = some true) :
    ∃ flags', act spec net flags { states := s, parallel := .one ((q : Int) - flags.length), independent := false, deterministic := det } =
      (flags', .error .range) ∧ Waiting flags flags' [(q : Int)] := by
  have hlt := (List.getElem?_eq_some_iff.1 hq).1
  obtain ⟨f, hb, ha⟩ := before_training (flags := flags) (.one ((q : Int) - flags.length)) det hs hm hg hgiven
  refine ⟨mark flags ([(q : Int)].map Int.toNat), ?_, mark_waiting (by intro p hp; rw [List.mem_singleton.1 hp]; omega)⟩
  have hpos : positions flags.length [(q : Int) - flags.length] = .ok [q] := by
    have : position flags.length ((q : Int) - flags.length) = .ok q := by
      unfold position
      rw [if_neg (by omega), if_pos (by omega)]
      congr 1
      omega
    show ([(q : Int) - flags.length].mapM (position flags.length)) = _
    rw [List.mapM_cons, this]
    rfl
  have hready : before spec flags ⟨s, .absent, .one ((q : Int) - flags.length), false, det⟩ =
      .ok ⟨⟨f, Form.single.batched, 1, Form.single.iter⟩, [], .flat [(q : Int) - flags.length], [q]⟩ := by
    rw [hb]
    show (positions flags.length [(q : Int) - flags.length] >>= _) = _
    rw [hpos, bind_ok]
    have : [q].all (fun p => flags.getD p false) = true := by
      rw [List.all_cons, List.getD_eq_getElem?_getD, hq]
      rfl
    rw [this]
    rfl
  unfold act
  show (match before spec flags ⟨s, .absent, .one ((q : Int) - flags.length), false, det⟩ with | .error e => _ | .ok r => _) = _
  rw [hready]
  dsimp only
  rw [ha net _ _ .range]
  · rfl
  · have : ([(q : Int) - flags.length].all (fun p => 0 ≤ p && p < flags.length)) = false := by
      rw [List.all_cons, decide_eq_false (show ¬ (0 ≤ (q : Int) - flags.length) by omega)]
      rfl
    show (if ([(q : Int) - flags.length].all (fun p => 0 ≤ p && p < flags.length)) then _ else _) = _
    rw [this]
    rfl

/-- A list of indices with a single time step is rejected, but all of these interactions wait for `observe` afterwards. -/
theorem list_violation (spec : Spec) (net : Net) (flags : List Bool) (states masks : Flat) (s : StatesIn)
    (l : List Int) (det : Bool) (hs : Separable spec) (hm : Match 1 spec.states states) (hg : GivenMasks spec 1 masks)
    (hgiven : Given 1 states masks s .single) (hl : l ≠ []) (hfree : Free flags l) :
    ∃ flags', act spec net flags { states := s, parallel := .many l, independent := false, deterministic := det } =
      (flags', .error .shape) ∧ Waiting flags flags' l := by
  obtain ⟨f, hb, ha⟩ := before_training (flags := flags) (.many l) det hs hm hg hgiven
  obtain ⟨hpos, hall, _⟩ := positions_free hfree hl
  refine ⟨mark flags (l.map Int.toNat), ?_, mark_waiting (fun p hp => (hfree p hp).1)⟩
  have hready : before spec flags ⟨s, .absent, .many l, false, det⟩ =
      .ok ⟨⟨f, Form.single.batched, 1, Form.single.iter⟩, [], .nested l, l.map Int.toNat⟩ := by
    rw [hb]
    show (positions flags.length l >>= _) = _
    rw [hpos, bind_ok, hall]
    rfl
  unfold act
  show (match before spec flags ⟨s, .absent, .many l, false, det⟩ with | .error e => _ | .ok r => _) = _
  rw [hready]
  dsimp only
  rw [ha net _ _ .shape rfl]

/-- Independent calls leave all interactions as they are. -/
theorem independent_untouched (spec : Spec) (net : Net) (flags : List Bool) (a : Verif.Act.Args) (h : a.independent = true) :
    (act spec net flags a).1 = flags := by
  unfold act
  cases hb : before spec flags a with
  | error e => rfl
  | ok r =>
    have hr : r.positions = [] := by
      unfold before at hb
      obtain ⟨_, _, hb⟩ := bind_eq_ok hb
      obtain ⟨inp, _, hb⟩ := bind_eq_ok hb
      unfold modeArgs at hb
      rw [if_pos h] at hb
      obtain ⟨f, _, hb⟩ := bind_eq_ok hb
      rw [← Except.ok.inj hb]
    show mark flags r.positions = flags
    rw [hr]
    rfl

/-- An index in independent mode is rejected. -/
theorem independent_index (spec : Spec) (net : Net) (flags : List Bool) (a : Verif.Act.Args) (h : a.independent = true) (hp : a.parallel ≠ .one 0) :
    act spec net flags a = (flags, .error .invalid) := by
  apply act_error
  have : checkArgs spec a = .error .invalid := by
    unfold checkArgs
    rw [if_pos h, if_pos hp]
  unfold before
  rw [this]
  rfl

example : Indices 2 [1, 0] (.many [1, 0]) .rows := .rows rfl nofun

example : Free [true, false, true] [2, 0] := by
  intro p hp
  rcases List.mem_cons.1 hp with h | h
  · subst h; exact ⟨by decide, by decide⟩
  · rw [List.mem_singleton.1 h]; exact ⟨by decide, by decide⟩

example : Waiting [true, false, true] [false, false, true] [0] := by
  refine ⟨rfl, fun q hq => ?_⟩
  match q, hq with
  | 0, _ => rfl
  | 1, _ => rfl
  | 2, _ => rfl

end Verif.Props.ActParallel
