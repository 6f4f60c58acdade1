import Verif.Gym.State
import Verif.Gym.LevelLemmas

/-! # Action masks and infinite numbers in observations -/

namespace Verif.Gym

theorem simple_named {s : Space} (hs : s.simple = true) (a : Arr) : named s (.array a) = .one a := by
  cases s <;> simp_all [Space.simple, named]

theorem simple_mem_fin {s : Space} (hw : s.wf = true) (hs : s.simple = true) {a : Arr} (hm : s.mem (.array a) = true) :
    a.elems.all Num.isFin = true := by
  obtain ⟨l, -, h⟩ := simple_ok hw hs
  exact fits_fin' (h a hm).1

/-- The components of a dictionary of spaces of one component are the entries of the dictionary. -/
theorem look_named : ∀ {ss : List (Name × Space)} {vs : List (Name × Value)}, (ss.all fun x => x.2.simple) = true →
    memDict ss vs = true → ∀ n, look n vs = (look n (namedDict ss vs)).map .array
  | [], [], _, _, n => rfl
  | (m, s) :: ss, (m', v) :: vs, hs, h, n => by
    simp only [memDict, Bool.and_eq_true, beq_iff_eq] at h
    simp only [List.all_cons, Bool.and_eq_true] at hs
    obtain ⟨a, rfl⟩ := simple_array hs.1 h.1.2
    rw [namedDict, simple_named hs.1, under, List.cons_append, List.nil_append, look, look, h.1.1]
    split
    · rfl
    · exact look_named hs.2 h.2 n
  | [], _ :: _, _, h, _ => by simp [memDict] at h
  | _ :: _, [], _, h, _ => by simp [memDict] at h

theorem popMasks_look {state : List (Name × Value)} {arrs : List (Name × Arr)} (h : ∀ n, look n state = (look n arrs).map .array) :
    ∀ (names : List Name) (acc : List (Name × Arr)), ∃ out, popMasks state names acc = .ok out ∧
      ∀ n, look n out = if n ∈ names ∧ (look n arrs).isSome then look n arrs else look n acc
  | [], acc => ⟨acc, rfl, fun n => by simp⟩
  | name :: names, acc => by
    rw [popMasks, h name]
    cases hl : look name arrs with
    | none =>
      obtain ⟨out, h1, h2⟩ := popMasks_look h names acc
      refine ⟨out, h1, fun n => ?_⟩
      rw [h2]
      by_cases e : n = name
      · subst e; simp [hl]
      · simp [e]
    | some a =>
      obtain ⟨out, h1, h2⟩ := popMasks_look h names (put name a acc)
      refine ⟨out, h1, fun n => ?_⟩
      rw [h2]
      by_cases e : n = name
      · subst e
        simp [hl, look_put_self]
      · rw [look_put_other e]
        simp [e]

theorem look_under_cons {name n : Name} {a : Arr} {l : List (Name × Arr)} :
    look n (under name (.one a) ++ l) = if name = n then some a else look n l := rfl

theorem flattenDict_look {spec : Spec} {moved : List Name} : ∀ {ss : List (Name × Space)} {vs : List (Name × Value)},
    wfDict ss = true → (ss.all fun x => x.2.simple) = true → (ss.map (·.1)).Nodup → (∀ x ∈ ss, ∃ l, spec.component x.1 = .ok l) →
    memDict ss vs = true → ∀ acc, ∃ out, flattenDict spec moved vs acc = .ok (.many out) ∧
      ∀ n, look n out = if n ∉ moved ∧ (look n (namedDict ss vs)).isSome then look n (namedDict ss vs) else look n acc
  | [], [], _, _, _, _, _, acc => ⟨acc, rfl, fun n => by simp [namedDict, look]⟩
  | (m, s) :: ss, (m', v) :: vs, hw, hs, hn, hc, h, acc => by
    simp only [wfDict, Bool.and_eq_true] at hw
    simp only [memDict, Bool.and_eq_true, beq_iff_eq] at h
    simp only [List.all_cons, Bool.and_eq_true] at hs
    rw [List.map_cons, List.nodup_cons] at hn
    obtain ⟨a, rfl⟩ := simple_array hs.1 h.1.2
    have hrest : look m (namedDict ss vs) = none := by
      have := look_named hs.2 h.2 m
      rw [look_none (fun x hx e => hn.1 (by rw [← memDict_names h.2, ← e]; exact List.mem_map.mpr ⟨x, hx, rfl⟩))] at this
      cases hl : look m (namedDict ss vs) with
      | none => rfl
      | some b => rw [hl] at this; simp at this
    have hc' : ∀ x ∈ ss, ∃ l, spec.component x.1 = .ok l := fun x hx => hc x (List.mem_cons_of_mem _ hx)
    rw [flattenDict, ← h.1.1, namedDict, simple_named hs.1]
    by_cases hm : m ∈ moved
    · rw [if_pos hm]
      obtain ⟨out, h1, h2⟩ := flattenDict_look hw.2 hs.2 hn.2 hc' h.2 acc
      refine ⟨out, h1, fun n => ?_⟩
      rw [h2, look_under_cons]
      by_cases e : m = n
      · subst e; simp [hm]
      · simp [e]
    · rw [if_neg hm]
      obtain ⟨l, hl⟩ := hc _ (List.mem_cons_self ..)
      dsimp only at hl
      rw [hl]
      dsimp only
      rw [flattenState, flattenArr_leaf l (simple_mem_fin hw.1 hs.1 h.1.2)]
      dsimp only
      rw [putFlat]
      obtain ⟨out, h1, h2⟩ := flattenDict_look hw.2 hs.2 hn.2 hc' h.2 (put m a acc)
      refine ⟨out, h1, fun n => ?_⟩
      rw [h2, look_under_cons]
      by_cases e : m = n
      · subst e
        simp [hm, hrest, look_put_self]
      · rw [look_put_other (Ne.symm e)]
        simp [e]
  | [], _ :: _, _, _, _, _, h, _ => by simp [memDict] at h
  | _ :: _, [], _, _, _, _, h, _ => by simp [memDict] at h

theorem dict_components : ∀ {ss : List (Name × Space)} {items : List (Name × Leaf)}, wfDict ss = true → (ss.map (·.1)).Nodup →
    (ss.all fun x => x.2.simple) = true → dictSpecs true ss [] = .ok items → ∀ x ∈ ss, ∃ l, (Spec.dict items).component x.1 = .ok l := by
  intro ss items hw hn hs h x hx
  have key : ∀ (ss : List (Name × Space)) (acc items : List (Name × Leaf)), wfDict ss = true → (ss.all fun x => x.2.simple) = true →
      dictSpecs true ss acc = .ok items → ∀ n, (n ∈ ss.map (·.1) ∨ (look n acc).isSome = true) → (look n items).isSome = true := by
    intro ss
    induction ss with
    | nil =>
      intro acc items _ _ h n hn
      simp only [dictSpecs, Except.ok.injEq] at h
      subst h
      simpa using hn
    | cons y ss ih =>
      obtain ⟨m, s⟩ := y
      intro acc items hw hs h n hn
      simp only [wfDict, Bool.and_eq_true] at hw
      simp only [List.all_cons, Bool.and_eq_true] at hs
      obtain ⟨l, hl, -⟩ := simple_ok hw.1 hs.1
      rw [dictSpecs, hl] at h
      dsimp only [putSpec] at h
      refine ih _ items hw.2 hs.2 h n ?_
      rcases hn with hn | hn
      · rcases List.mem_cons.mp hn with e | hn
        · right; dsimp only at e; rw [e, look_put_self]; rfl
        · exact .inl hn
      · right
        by_cases e : n = m
        · rw [e, look_put_self]; rfl
        · rw [look_put_other e]; exact hn
  have := key ss [] items hw hs h x.1 (.inl (List.mem_map.mpr ⟨x, hx, rfl⟩))
  obtain ⟨l, hl⟩ := Option.isSome_iff_exists.mp this
  exact ⟨l, component_find hl⟩

/-- Dictionaries of spaces of one component, with masks of the actions among them. -/
theorem masks_ok {ss : List (Name × Space)} (hw : (Space.dict ss).wf = true) (hs : (ss.all fun x => x.2.simple) = true)
    (actions : Option Spec) {sp : Spec} (hsp : specs true none none (.dict ss) = .ok sp) {vs : List (Name × Value)}
    (hv : memDict ss vs = true) : ∃ out, flattenState sp actions (.dict vs) = .ok (.many out) ∧
      ∀ n, look n out = look n (namedDict ss vs) := by
  simp only [Space.wf, Bool.and_eq_true, decide_eq_true_eq] at hw
  rw [specs] at hsp
  cases hd : dictSpecs true ss [] with
  | error e => rw [hd] at hsp; simp at hsp
  | ok items =>
    rw [hd] at hsp
    simp only [Except.ok.injEq] at hsp
    subst hsp
    obtain ⟨acc, h1, h2⟩ := popMasks_look (look_named hs hv) (maskNames actions) []
    obtain ⟨out, h3, h4⟩ := flattenDict_look (moved := maskNames actions) hw.1 hs hw.2 (dict_components hw.1 hw.2 hs hd) hv acc
    refine ⟨out, ?_, fun n => ?_⟩
    · rw [flattenState, h1]
      exact h3
    · rw [h4, h2]
      by_cases hm : n ∈ maskNames actions
      · simp only [hm, not_true, false_and, if_false, true_and]
        split
        · rfl
        · rename_i hn
          cases hl : look n (namedDict ss vs) with
          | none => rfl
          | some a => rw [hl] at hn; simp at hn
      · simp only [hm, not_false_eq_true, true_and, false_and, if_false]
        split
        · rfl
        · rename_i hn
          cases hl : look n (namedDict ss vs) with
          | none => rfl
          | some a => rw [hl] at hn; simp at hn

mutual
/-- Converted observations are finite. -/
theorem flatten_finite : ∀ (v : Value) (spec : Spec) (actions : Option Spec) (f : Flat), (∀ n ∈ maskNames actions, n ∉ v.keys) →
    flattenState spec actions v = .ok f → v.finite = true
  | .array a, spec, actions, f, _, h => by
    rw [flattenState, flattenArr] at h
    split at h
    · simp at h
    · rename_i hf
      simpa [Value.finite] using hf
  | .tuple vs, spec, actions, f, _, h => by
    rw [flattenState] at h
    rw [Value.finite]
    exact flatten_finite_tuple vs spec 0 [] f h
  | .dict vs, spec, actions, f, hk, h => by
    rw [flattenState] at h
    cases hp : popMasks vs (maskNames actions) [] with
    | error e => rw [hp] at h; simp at h
    | ok acc =>
      rw [hp] at h
      rw [Value.finite]
      exact flatten_finite_dict vs spec _ acc f (fun x hx hm => hk x.1 hm (List.mem_map.mpr ⟨x, hx, rfl⟩)) h
theorem flatten_finite_tuple : ∀ (vs : List Value) (spec : Spec) (n : Nat) (acc : List (Name × Arr)) (f : Flat),
    flattenTuple spec n vs acc = .ok f → finiteTuple vs = true
  | [], _, _, _, _, _ => rfl
  | v :: vs, spec, n, acc, f, h => by
    rw [flattenTuple] at h
    split at h
    · simp at h
    · rename_i l hl
      split at h
      · simp at h
      · rename_i g hg
        rw [finiteTuple, flatten_finite v _ none g (by simp [maskNames]) hg, flatten_finite_tuple vs spec _ _ f h]
        rfl
theorem flatten_finite_dict : ∀ (vs : List (Name × Value)) (spec : Spec) (moved : List Name) (acc : List (Name × Arr)) (f : Flat),
    (∀ x ∈ vs, x.1 ∉ moved) → flattenDict spec moved vs acc = .ok f → finiteDict vs = true
  | [], _, _, _, _, _, _ => rfl
  | (n, v) :: vs, spec, moved, acc, f, hm, h => by
    rw [flattenDict, if_neg (hm _ (List.mem_cons_self ..))] at h
    split at h
    · simp at h
    · rename_i l hl
      split at h
      · simp at h
      · rename_i g hg
        rw [finiteDict, flatten_finite v _ none g (by simp [maskNames]) hg,
          flatten_finite_dict vs spec moved _ f (fun x hx => hm x (List.mem_cons_of_mem _ hx)) h]
        rfl
end

end Verif.Gym
