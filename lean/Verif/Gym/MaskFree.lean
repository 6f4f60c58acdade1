import Verif.Gym.Mask

/-! # Masks which are not part of the observation space -/

namespace Verif.Gym

instance (actions : Spec) (name : Name) : Decidable (IsMask actions name) :=
  match actions with
  | .leaf _ => inferInstanceAs (Decidable (_ = _))
  | .dict _ => inferInstanceAs (Decidable (∃ x ∈ _, _))

theorem isMask_iff {actions : Spec} {name : Name} : IsMask actions name ↔ name ∈ maskNames (some actions) := by
  cases actions with
  | leaf l => simp [IsMask, maskNames]
  | dict items =>
    simp only [IsMask, maskNames, List.mem_map]
    exact ⟨fun ⟨x, hx, e⟩ => ⟨x, hx, e.symm⟩, fun ⟨x, hx, e⟩ => ⟨x, hx, e.symm⟩⟩

theorem flattenDict_filter (spec : Spec) (moved : List Name) : ∀ (us : List (Name × Value)) (acc : List (Name × Arr)),
    flattenDict spec moved us acc = flattenDict spec moved (us.filter fun x => decide (x.1 ∉ moved)) acc
  | [], _ => rfl
  | (name, v) :: us, acc => by
    by_cases h : name ∈ moved
    · rw [List.filter_cons_of_neg (by simpa using h), flattenDict, if_pos h]
      exact flattenDict_filter spec moved us acc
    · rw [List.filter_cons_of_pos (by simpa using h), flattenDict, flattenDict, if_neg h, if_neg h]
      cases spec.component name with
      | error e => rfl
      | ok l =>
        dsimp only
        cases flattenState (.leaf l) none v with
        | error e => rfl
        | ok f => exact flattenDict_filter spec moved us _

theorem look_filter_not {moved : List Name} {n : Name} (hn : n ∉ moved) : ∀ (us : List (Name × Value)),
    look n (us.filter fun x => decide (x.1 ∉ moved)) = look n us
  | [] => rfl
  | (m, v) :: us => by
    by_cases h : m ∈ moved
    · rw [List.filter_cons_of_neg (by simpa using h), look_filter_not hn us, look, if_neg (fun e : m = n => hn (e ▸ h))]
    · rw [List.filter_cons_of_pos (by simpa using h), look, look, look_filter_not hn us]

theorem arrays_of : ∀ {us : List (Name × Value)}, (∀ x ∈ us, ∃ a, x.2 = .array a) →
    ∃ arrs : List (Name × Arr), ∀ n, look n us = (look n arrs).map .array
  | [], _ => ⟨[], fun _ => rfl⟩
  | (m, v) :: us, h => by
    obtain ⟨a, ha⟩ := h _ (List.mem_cons_self ..)
    dsimp only at ha
    subst ha
    obtain ⟨arrs, h'⟩ := arrays_of (us := us) fun x hx => h x (List.mem_cons_of_mem _ hx)
    refine ⟨(m, a) :: arrs, fun n => ?_⟩
    rw [look, look]
    split
    · rfl
    · exact h' n

theorem memDict_arrays : ∀ {ss : List (Name × Space)} {vs : List (Name × Value)}, (ss.all fun x => x.2.simple) = true →
    memDict ss vs = true → ∀ x ∈ vs, ∃ a, x.2 = .array a
  | [], [], _, _, x, hx => by simp at hx
  | (m, s) :: ss, (m', v) :: vs, hs, h, x, hx => by
    simp only [memDict, Bool.and_eq_true, beq_iff_eq] at h
    simp only [List.all_cons, Bool.and_eq_true] at hs
    rcases List.mem_cons.mp hx with rfl | hx
    · exact simple_array hs.1 h.1.2
    · exact memDict_arrays hs.2 h.2 x hx
  | [], _ :: _, _, h, _, _ => by simp [memDict] at h
  | _ :: _, [], _, h, _, _ => by simp [memDict] at h

theorem masks_free {ss : List (Name × Space)} (hw : (Space.dict ss).wf = true) (hs : (ss.all fun x => x.2.simple) = true)
    (actions : Spec) {sp : Spec} (hsp : specs true none none (.dict ss) = .ok sp) {us : List (Name × Value)}
    (hm : ∀ x ∈ us, IsMask actions x.1 → ∃ a, x.2 = .array a)
    (hv : memDict ss (us.filter fun x => decide (¬ IsMask actions x.1)) = true) :
    ∃ out, observe {} sp actions (.dict us) = .ok (.many out) ∧ ∀ n, (look n out).map .array = look n us := by
  have hf : (us.filter fun x => decide (¬ IsMask actions x.1)) = us.filter fun x => decide (x.1 ∉ maskNames (some actions)) := by
    apply List.filter_congr
    intro x _
    simp [isMask_iff]
  have harr : ∀ x ∈ us, ∃ a, x.2 = .array a := by
    intro x hx
    by_cases h : IsMask actions x.1
    · exact hm x hx h
    · exact memDict_arrays hs hv x (List.mem_filter.mpr ⟨hx, by simpa using h⟩)
  obtain ⟨arrs, ha⟩ := arrays_of harr
  obtain ⟨acc, h1, h2⟩ := popMasks_look ha (maskNames (some actions)) []
  rw [hf] at hv
  simp only [Space.wf, Bool.and_eq_true, decide_eq_true_eq] at hw
  have hspec : ∃ items, sp = .dict items ∧ dictSpecs true ss [] = .ok items := by
    rw [specs] at hsp
    cases hd : dictSpecs true ss [] with
    | error e => rw [hd] at hsp; simp at hsp
    | ok items =>
      rw [hd] at hsp
      simp only [Except.ok.injEq] at hsp
      exact ⟨items, hsp.symm, rfl⟩
  obtain ⟨items, rfl, hd⟩ := hspec
  obtain ⟨out, g1, g2⟩ := flattenDict_look (moved := maskNames (some actions)) hw.1 hs hw.2 (dict_components hw.1 hw.2 hs hd) hv acc
  rw [← flattenDict_filter] at g1
  refine ⟨out, ?_, fun n => ?_⟩
  · rw [observe, flattenState, h1]
    dsimp only
    rw [g1]
    rfl
  · have hn := look_named hs hv n
    rw [g2 n, h2 n]
    by_cases e : n ∈ maskNames (some actions)
    · rw [if_neg (fun h => h.1 e), ha n]
      cases look n arrs <;> simp [e, look]
    · rw [look_filter_not e] at hn
      rw [hn]
      cases look n (namedDict ss (us.filter fun x => decide (x.1 ∉ maskNames (some actions)))) <;> simp [e, look]

end Verif.Gym
