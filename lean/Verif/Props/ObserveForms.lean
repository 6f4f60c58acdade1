import Verif.Obs.StateLemmas

/-!
# The forms of observe (C126)
-/

namespace Verif.Props.ObserveForms

open Verif.Obs

variable {R : Type} [DecidableEq R] [Zero R]

/-- The arguments are accepted exactly if they mean something, and are understood as meant: single values for one interaction, lists and
arrays entry by entry, missing rewards as zero, missing terminals as false, and without interactions all of them in order. -/
theorem meaning (n : Nat) (reward : Arg R) (terminal : Arg Code) (parallel : Arg Int) (l : List (Int × Int × R)) :
    forms n reward terminal parallel = .ok l ↔ Means n reward terminal parallel l := forms_iff

/-- All single values may be given as lists with one entry. -/
theorem single_list (n : Nat) (reward : Arg R) (terminal : Arg Code) (parallel : Arg Int) (r : R) (c : Code) (p : Int) (hr : One reward r)
    (hc : One terminal c) (hp : One parallel p) : forms n reward terminal parallel = forms n (.list [r]) (.list [c]) (.list [p]) := by
  cases hr <;> cases hc <;> cases hp <;> rfl

/-- Lists of different lengths are refused, and so are empty lists. -/
theorem lengths (n : Nat) (reward : Arg R) (terminal : Arg Code) (parallel : Arg Int) (rs : List R) (cs : List Code) (ps : List Int)
    (hr : Entries reward rs) (hc : Entries terminal cs) (hp : Entries parallel ps) :
    (ps = [] → forms n reward terminal parallel = .error .empty) ∧
    (ps ≠ [] → rs.length ≠ ps.length ∨ cs.length ≠ ps.length → forms n reward terminal parallel = .error .length) := by
  have key : forms n reward terminal parallel = consistent (.one rs) (.one (cs.map Code.toInt)) (.one ps) := by
    cases hr <;> cases hc <;> cases hp <;> (unfold forms arrays; simp [Arg.batched, parallelOr, asarray, terminalOr])
  rw [key]
  constructor
  · rintro rfl; rfl
  · intro h0 h
    unfold consistent
    dsimp only
    rw [if_neg (fun h => h0 (List.length_eq_zero_iff.1 h)), List.length_map]
    by_cases h1 : rs.length = ps.length
    · rw [if_neg (fun h => h h1), if_pos (h.resolve_left (fun h => h h1))]
    · rw [if_pos h1]

/-- A refused form leaves the agent as it was. -/
theorem refused_unchanged (c : Config) (st : State R) (reward : Arg R) (terminal : Arg Code) (parallel : Arg Int) (e : Err)
    (h : forms c.interactions reward terminal parallel = .error e) : observe c st reward terminal parallel = (st, .error e) := by
  unfold observe
  rw [h]

/-- The number 0 is documented as terminal just as false, but refused with several rewards, whatever the interactions. -/
theorem zero_violation (n : Nat) (rs : List R) (ps : List Int) (h : ps ≠ []) :
    forms n (.list rs) (.single (.num 0)) (.list ps) = .error .length ∧
    (rs.length = ps.length → ∃ l, forms n (.list rs) (.single (.py false)) (.list ps) = .ok l) := by
  have hl : ¬ps.length = 0 := fun h' => h (List.length_eq_zero_iff.1 h')
  constructor
  · show consistent (.one (rs.map id)) (.zero 0) (.one (ps.map id)) = _
    unfold consistent
    dsimp only
    rw [List.length_map, List.length_map, if_neg hl]
    split <;> rfl
  · intro hr
    refine ⟨ps.zip ((List.replicate rs.length 0).zip rs), ?_⟩
    show consistent (.one (rs.map id)) (.one (List.replicate rs.length 0)) (.one (ps.map id)) = _
    unfold consistent
    dsimp only
    rw [List.map_id, List.map_id, if_neg hl, if_neg (fun h => h hr), List.length_replicate, if_neg (fun h => h hr)]

/-- The same holds for false as a value of NumPy. -/
theorem numpy_violation (n : Nat) (rs : List R) (ps : List Int) (h : ps ≠ []) (b : Bool) :
    forms n (.list rs) (.single (.np b)) (.list ps) = .error .length := by
  have hl : ¬ps.length = 0 := fun h' => h (List.length_eq_zero_iff.1 h')
  show consistent (.one (rs.map id)) (.zero (Code.toInt (.np b))) (.one (ps.map id)) = _
  unfold consistent
  dsimp only
  rw [List.length_map, List.length_map, if_neg hl]
  split <;> rfl

/-- Several rewards for a single interaction other than 0 raise an IndexError, also if there is just one. -/
theorem index_violation (n : Nat) (rs : List R) (terminal : Arg Code) (p : Int) (h : p ≠ 0) :
    forms n (.list rs) terminal (.single p) = .error .tuple := by
  unfold forms arrays
  show (match (match parallelOr n rs.length (.single p) with
    | .error e => .error e
    | .ok p => .ok (asarray id (Arg.list rs), terminalOr rs.length terminal, p) : Except Err (Arr R × Arr Int × Arr Int)) with
    | .error e => .error e
    | .ok (r, t, p) => consistent r t p : Except Err (List (Int × Int × R))) = _
  unfold parallelOr
  dsimp only
  rw [if_neg h]
  rfl

/-- Rewards for other than all interactions, without saying which, raise an AssertionError. -/
theorem assertion_violation (n : Nat) (rs : List R) (terminal : Arg Code) (h : rs.length ≠ n) :
    forms n (.list rs) terminal (.single 0) = .error .assertion := by
  unfold forms arrays
  show (match (match parallelOr n rs.length (.single 0) with
    | .error e => .error e
    | .ok p => .ok (asarray id (Arg.list rs), terminalOr rs.length terminal, p) : Except Err (Arr R × Arr Int × Arr Int)) with
    | .error e => .error e
    | .ok (r, t, p) => consistent r t p : Except Err (List (Int × Int × R))) = _
  unfold parallelOr
  dsimp only
  rw [if_pos rfl, if_neg h]

/-- The same holds for terminals without rewards. -/
theorem terminals_violation (n : Nat) (cs : List Code) (r : R) (h : cs.length ≠ n) :
    forms n (.single r) (.list cs) (.single 0) = .error .assertion := by
  unfold forms arrays
  show (match (match parallelOr n cs.length (.single 0) with
    | .error e => .error e
    | .ok p => .ok (rewardOr cs.length (Arg.single r), asarray Code.toInt (Arg.list cs), p) : Except Err (Arr R × Arr Int × Arr Int)) with
    | .error e => .error e
    | .ok (r, t, p) => consistent r t p : Except Err (List (Int × Int × R))) = _
  unfold parallelOr
  dsimp only
  rw [if_pos rfl, if_neg h]

/-- Two interactions, with rewards only, with terminals only, with interactions only. -/
example : forms 2 (.list [(5 : Int), 7]) (.single (.py false)) (.single 0) = .ok [(0, 0, 5), (1, 0, 7)] ∧
    forms 2 (.single (0 : Int)) (.array [.np true, .num 2]) (.single 0) = .ok [(0, 1, 0), (1, 2, 0)] ∧
    forms 3 (.single (0 : Int)) (.single (.py false)) (.list [2, 0]) = .ok [(2, 0, 0), (0, 0, 0)] ∧
    forms 3 (.single (4 : Int)) (.single (.num 2)) (.array0 1) = .ok [(1, 2, 4)] := by decide

end Verif.Props.ObserveForms
