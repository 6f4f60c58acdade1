import Verif.Policy.ValueLemmas
import Verif.Policy.Rational

/-!
# Property C59: value policies act greedily

* `greedy_partial`: the action taken is allowed and has the greatest value of all allowed ones.
* `state_value_partial`: the state value is the value of the action taken; `separate_violation` for
  `state_value_mode='separate'`.
* `dueling`: with a separate state value the values of the choices have it as their mean.
* `per_action_violation`: `state_value_mode='separate-per-action'` does not work for scalar actions.
-/

namespace Verif.Props.Value

open Verif.Policy

variable {K : Type} [Field K] [LinearOrder K] [IsStrictOrderedRing K]

/-- There is at least one value, and the mask has the right length and allows at least one. -/
def Valid : Element K → Prop
  | .bool _ _ => True
  | .int vs mask => vs ≠ [] ∧ ∀ m, mask = some m → m.length = vs.length ∧ true ∈ m

/-- The choice is one for this component and allowed by the mask. -/
def Allowed : Element K → Choice → Prop
  | .bool _ _, .bool _ => True
  | .int vs mask, .int n => n < vs.length ∧ ∀ m, mask = some m → m[n]? = some true
  | _, _ => False

/-- Action values which can be masked are greater than the least float. -/
def Above (mode : Mode) (state : K) (e : Element K) : Prop :=
  ∀ vs m, e = .int vs (some m) → ∀ v ∈ e.values mode state, floatMin < v

/-- The action taken is allowed, and no allowed action has a greater value; the state value of the
component is the value of this action.  Missing: masked actions whose value is not above the least
float. -/
theorem greedy_partial (mode : Mode) (state : K) (e : Element K) (he : Valid e)
    (ha : Above mode state e) :
    Allowed e (e.act mode state) ∧
      e.actionValue mode state (e.act mode state) = some (e.stateValue mode state) ∧
      ∀ c, Allowed e c → ∃ v, e.actionValue mode state c = some v ∧ v ≤ e.stateValue mode state := by
  cases e with
  | bool x y =>
    refine ⟨trivial, ?_, ?_⟩
    · simp only [Element.act, Element.actionValue, Element.stateValue, decide_eq_true_eq]
      split
      · rename_i h
        rw [max_eq_left (le_of_lt h)]
      · rename_i h
        rw [max_eq_right (not_lt.1 h)]
    · intro c hc
      cases c with
      | int n => exact hc.elim
      | bool b =>
        cases b
        · exact ⟨_, rfl, le_max_right ..⟩
        · exact ⟨_, rfl, le_max_left ..⟩
  | int vs mask =>
    obtain ⟨hne, hm⟩ := he
    have hl : ((Element.int vs mask).values mode state).length = vs.length :=
      values_length mode state (.int vs mask)
    have hab : ∀ m, mask = some m → ∀ v ∈ (Element.int vs mask).values mode state, floatMin < v :=
      fun m e => ha vs m (by rw [e])
    simp only [Element.act, Element.actionValue, Element.stateValue]
    generalize (Element.int vs mask).values mode state = ws at hl hab
    have hws : ws ≠ [] := by
      rintro rfl
      exact hne (List.length_eq_zero_iff.1 hl.symm)
    cases mask with
    | none =>
      show Allowed (.int vs none) (.int (argmax ws)) ∧ ws[argmax ws]? = some (maximum ws) ∧ _
      refine ⟨⟨?_, by simp⟩, argmax_maximum ws hws, fun c hc => ?_⟩
      · rw [← hl]
        exact argmax_lt ws hws
      · cases c with
        | bool b => exact hc.elim
        | int n =>
          have hn : n < ws.length := by rw [hl]; exact hc.1
          exact ⟨ws[n], List.getElem?_eq_getElem hn, le_maximum _ _ (List.getElem_mem hn)⟩
    | some m =>
      obtain ⟨hml, htrue⟩ := hm m rfl
      have hmw : m.length = ws.length := hml.trans hl.symm
      have hal := applyMask_length m ws hmw
      have hane : applyMask (some m) ws ≠ [] := by
        intro h
        rw [h] at hal
        exact hws (List.length_eq_zero_iff.1 hal.symm)
      have hmax := argmax_maximum _ hane
      -- an allowed value keeps its action value
      have hkeep : ∀ (n : Nat) (v : K), m[n]? = some true → ws[n]? = some v →
          v ≤ maximum (applyMask (some m) ws) := by
        intro n v h1 h2
        have := applyMask_getElem m ws n h1 h2
        exact le_maximum _ _ (List.mem_of_getElem? (by simpa using this))
      -- the best one is allowed
      have hi := argmax_lt _ hane
      generalize hk : argmax (applyMask (some m) ws) = i at hmax hi
      have him : i < m.length := by omega
      have hiw : i < ws.length := by omega
      have hgi := applyMask_getElem m ws i (List.getElem?_eq_getElem him)
        (List.getElem?_eq_getElem hiw)
      rw [hmax] at hgi
      have hallow : m[i] = true := by
        cases hb : m[i] with
        | true => rfl
        | false =>
          exfalso
          rw [hb] at hgi
          have h0 : maximum (applyMask (some m) ws) = floatMin := by simpa using hgi
          obtain ⟨n, hn⟩ := List.mem_iff_getElem?.1 htrue
          have hnw : n < ws.length := by
            rw [← hmw]
            exact (List.getElem?_eq_some_iff.1 hn).1
          have h1 := hkeep n _ hn (List.getElem?_eq_getElem hnw)
          rw [h0] at h1
          exact absurd (hab m rfl _ (List.getElem_mem hnw)) (not_lt.2 h1)
      rw [hallow, if_pos rfl] at hgi
      have e : maximum (applyMask (some m) ws) = ws[i] := Option.some.inj hgi
      refine ⟨⟨by omega, fun m' h => ?_⟩, ?_, fun c hc => ?_⟩
      · cases h
        rw [List.getElem?_eq_getElem him, hallow]
      · show ws[i]? = _
        rw [e]
        exact List.getElem?_eq_getElem hiw
      · cases c with
        | bool b => exact hc.elim
        | int n =>
          have hn : n < ws.length := by rw [hl]; exact hc.1
          exact ⟨ws[n], List.getElem?_eq_getElem hn,
            hkeep n _ (hc.2 m rfl) (List.getElem?_eq_getElem hn)⟩

example : (Element.int [3, 1, 2] (some [false, true, true]) : Element ℚ).act .separate 5 = .int 2 ∧
    (Element.int [3, 1, 2] (some [false, true, true]) : Element ℚ).stateValue .separate 5 = 5 := by
  decide +kernel

example : Allowed (Element.int [3, 1, 2] (some [false, true, true]) : Element ℚ)
    ((Element.int [3, 1, 2] (some [false, true, true]) : Element ℚ).act .implicit 0) := by
  refine (greedy_partial .implicit 0 (.int [3, 1, 2] (some [false, true, true]))
    ⟨by simp, fun m h => ?_⟩ fun vs m h => ?_).1
  · cases h
    decide
  · decide +kernel

/-- A boolean action is `False` if both values are equal, and an integer action the first of
several best ones. -/
theorem ties (mode : Mode) (state : K) :
    (∀ x : K, (Element.bool x x).act mode state = .bool false) ∧
      ∀ (vs : List K) (n : Nat), vs ≠ [] → (Element.int vs none).act mode state = .int n →
        ∀ (k : Nat) (v w : K), k < n → ((Element.int vs none).values mode state)[k]? = some v →
          ((Element.int vs none).values mode state)[n]? = some w → v < w := by
  constructor
  · intro x
    have : entry ((Element.bool x x).values mode state) 0 =
        entry ((Element.bool x x).values mode state) 1 := by cases mode <;> rfl
    simp only [Element.act, this, lt_irrefl, decide_false]
  · intro vs n hne hn k v w hk hv hw
    have hl := values_length mode state (.int vs none)
    generalize hws : (Element.int vs none).values mode state = ws at hl hv hw
    have hwn : ws ≠ [] := by
      rintro rfl
      exact hne (List.length_eq_zero_iff.1 hl.symm)
    obtain ⟨-, b, h1, -, h3⟩ := argmax_spec ws hwn
    have hi : argmax ws = n := by
      have : (Element.int vs none).act mode state = .int (argmax ws) := by
        simp only [Element.act, hws, applyMask]
      rw [this] at hn
      exact Choice.int.inj hn
    rw [hi] at h1 h3
    rw [hw] at h1
    rw [Option.some.inj h1]
    exact h3 k v hk hv

example : (Element.int [1, 3, 3] none : Element ℚ).act .implicit 0 = .int 1 := by decide +kernel

/-- The state value is the value of the actions taken.  Missing: `state_value_mode='separate'`, see
`separate_violation`. -/
theorem state_value_partial (state : K) (es : List (Element K)) (he : ∀ e ∈ es, Valid e)
    (ha : ∀ e ∈ es, Above .implicit state e) :
    actionValue .implicit state es (actValue .implicit state es) =
      some (stateValue .implicit state es) := by
  have h : actionValues .implicit state es (actValue .implicit state es) =
      some (es.map fun e => e.stateValue .implicit state) := by
    induction es with
    | nil => rfl
    | cons e es ih =>
      have h1 := (greedy_partial .implicit state e (he e (List.mem_cons_self ..))
        (ha e (List.mem_cons_self ..))).2.1
      have h2 := ih (fun e h => he e (List.mem_cons_of_mem _ h))
        fun e h => ha e (List.mem_cons_of_mem _ h)
      simp only [actValue] at h2
      simp only [actValue, List.map_cons, actionValues, h1, h2]
  simp only [actionValue, h, Option.map_some, stateValue]

example : stateValue .implicit (0 : ℚ) [.bool 1 2, .int [3, 8] none] = 5 ∧
    actionValue .implicit (0 : ℚ) [.bool 1 2, .int [3, 8] none] [.bool false, .int 1] = some 5 := by
  decide +kernel

/-- With a separate state value the values of the choices of every component have it as their
mean. -/
theorem dueling (state : K) (e : Element K) (he : Valid e) :
    mean (e.values .separate state) = state := by
  refine mean_shift e.outputs ?_ state
  cases e with
  | bool x y => simp [Element.outputs]
  | int vs mask => exact he.1

example : mean ((Element.int [3, 1, 2] none : Element ℚ).values .separate 7) = 7 :=
  dueling 7 _ ⟨by simp, by simp⟩

/-- With a separate state value, the state value is the mean over all choices instead of the value of
the action taken: for a boolean action it is too small unless both choices are equally good. -/
theorem separate_violation (state x y : K) (h : x ≠ y) :
    ∃ v, actionValue .separate state [.bool x y] (actValue .separate state [.bool x y]) = some v ∧
      stateValue .separate state [.bool x y] < v := by
  obtain ⟨-, h1, h2⟩ := greedy_partial .separate state (.bool x y) trivial (by intro _ _ h; cases h)
  refine ⟨mean [(Element.bool x y).stateValue .separate state], ?_, ?_⟩
  · simp only [actionValue, actValue, List.map_cons, List.map_nil, actionValues, h1, Option.map_some]
  · have e1 : mean [(Element.bool x y).stateValue .separate state] =
        (Element.bool x y).stateValue .separate state := by
      simp [mean]
    rw [e1]
    show state < max (state + (x - mean [x, y])) (state + (y - mean [x, y]))
    have e2 : mean [x, y] = (x + y) / 2 := by
      simp [mean]
    rw [e2, lt_max_iff]
    rcases lt_or_gt_of_ne h with h | h
    · right
      linarith
    · left
      linarith

example : stateValue .separate (5 : ℚ) [.bool 1 3] = 5 ∧
    actionValue .separate (5 : ℚ) [.bool 1 3] [.bool false] = some 6 := by decide +kernel

/-- With `state_value_mode='separate-per-action'` the action values of a scalar action never have
the shape `[batch, numValues]`. -/
theorem per_action_violation (batch size numValues : Nat) :
    perActionShape batch size [] numValues ≠ some [batch, numValues] := by
  have hb : ∀ xs ys zs : List Nat, broadcastAll xs ys = some zs → zs.length = xs.length := by
    intro xs
    induction xs with
    | nil =>
      intro ys zs h
      cases ys with
      | nil => cases h; rfl
      | cons => cases h
    | cons a as ih =>
      intro ys zs h
      cases ys with
      | nil => cases h
      | cons b bs =>
        unfold broadcastAll at h
        split at h
        · obtain ⟨ws, h1, rfl⟩ := Option.map_eq_some_iff.1 h
          simp [ih _ _ h1]
        · split at h
          · obtain ⟨ws, h1, rfl⟩ := Option.map_eq_some_iff.1 h
            simp [ih _ _ h1]
          · cases h
  intro h
  have := hb _ _ _ h
  simp at this

/-- For an action with one axis, as long as the size of the state of the same name, it has. -/
theorem per_action_vector (batch size numValues : Nat) :
    perActionShape batch size [size] numValues = some [batch, size, numValues] := by
  by_cases h : numValues = 1
  · simp [perActionShape, broadcastShape, broadcastAll, h]
  · simp [perActionShape, broadcastShape, broadcastAll, h, Ne.symm h]

example : perActionShape 2 1 [] 4 = some [2, 2, 4] := by decide

end Verif.Props.Value
