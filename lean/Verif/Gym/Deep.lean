import Verif.Gym.State
import Verif.Gym.Action

/-! # Observations with nested components -/

namespace Verif.Gym

/-- The entries of components with the given names and specifications. -/
def assemble : List (Name × Spec) → List (Name × Leaf)
  | [] => []
  | (n, sp) :: cs => underSpec n sp ++ assemble cs

theorem assemble_mem : ∀ {cs : List (Name × Spec)} {x : Name × Leaf}, x ∈ assemble cs → ∃ c ∈ cs, x ∈ underSpec c.1 c.2
  | [], x, h => by simp [assemble] at h
  | (n, sp) :: cs, x, h => by
    rw [assemble, List.mem_append] at h
    rcases h with h | h
    · exact ⟨_, List.mem_cons_self .., h⟩
    · obtain ⟨c, hc, hx⟩ := assemble_mem h
      exact ⟨c, List.mem_cons_of_mem _ hc, hx⟩

theorem unique_name {α : Type} : ∀ {cs : List (Name × α)}, (cs.map (·.1)).Nodup → ∀ {c d : Name × α}, c ∈ cs → d ∈ cs → c.1 = d.1 → c = d
  | [], _, c, d, hc, _, _ => by simp at hc
  | x :: cs, h, c, d, hc, hd, e => by
    rw [List.map_cons, List.nodup_cons] at h
    rcases List.mem_cons.mp hc with hc' | hc' <;> rcases List.mem_cons.mp hd with hd' | hd'
    · rw [hc', hd']
    · exact (h.1 (List.mem_map.mpr ⟨d, hd', by rw [← e, hc']⟩)).elim
    · exact (h.1 (List.mem_map.mpr ⟨c, hc', by rw [e, hd']⟩)).elim
    · exact unique_name h.2 hc' hd' e

theorem assemble_find {cs : List (Name × Spec)} (hn : (cs.map (·.1)).Nodup) (hc : ∀ c ∈ cs, '_' ∉ c.1) {name : Name}
    {its : List (Name × Leaf)} (hm : (name, Spec.dict its) ∈ cs) : look name (assemble cs) = none := by
  apply look_none
  intro x hx e
  obtain ⟨c, hcm, hxc⟩ := assemble_mem hx
  have h1 := head_under (hc c hcm) hxc
  rw [e, before_clean (hc _ hm)] at h1
  have h2 := unique_name hn hm hcm h1
  subst h2
  obtain ⟨y, -, rfl⟩ := List.mem_map.mp hxc
  exact hc _ hm (e ▸ by simp)

theorem underSpec_prefix {name : Name} {its : List (Name × Leaf)} :
    (underSpec name (.dict its)).filter ((name ++ ['_']).isPrefixOf ·.1) = underSpec name (.dict its) := by
  rw [List.filter_eq_self]
  intro x hx
  obtain ⟨y, -, rfl⟩ := List.mem_map.mp hx
  have := prefix_self_append (name ++ ['_']) y.1
  simpa [List.append_assoc] using this

theorem underSpec_other {name other : Name} (h : '_' ∉ name) (h' : '_' ∉ other) (hne : name ≠ other) (sp : Spec) :
    (underSpec other sp).filter ((name ++ ['_']).isPrefixOf ·.1) = [] := by
  rw [List.filter_eq_nil_iff]
  intro x hx hp
  cases sp with
  | leaf l =>
    rw [underSpec, List.mem_singleton] at hx
    subst hx
    rw [prefix_under_clean h'] at hp
    simp at hp
  | dict its =>
    obtain ⟨y, -, rfl⟩ := List.mem_map.mp hx
    exact hne (prefix_under h h' hp)

theorem assemble_filter : ∀ {cs : List (Name × Spec)}, (cs.map (·.1)).Nodup → (∀ c ∈ cs, '_' ∉ c.1) → ∀ {name : Name}
    {its : List (Name × Leaf)}, (name, Spec.dict its) ∈ cs →
    (assemble cs).filter ((name ++ ['_']).isPrefixOf ·.1) = underSpec name (.dict its)
  | [], _, _, name, its, hm => by simp at hm
  | (n, sp) :: cs, hn, hc, name, its, hm => by
    rw [List.map_cons, List.nodup_cons] at hn
    have hname : '_' ∉ name := hc _ hm
    rw [assemble, List.filter_append]
    by_cases e : n = name
    · have e2 : (n, sp) = (name, Spec.dict its) := by
        rcases List.mem_cons.mp hm with h | h
        · exact h.symm
        · exact absurd (List.mem_map.mpr ⟨_, h, e.symm⟩) hn.1
      have e3 : sp = .dict its := (Prod.mk.inj e2).2
      subst e e3
      rw [underSpec_prefix, List.append_right_eq_self, List.filter_eq_nil_iff]
      intro x hx hp
      obtain ⟨c, hcm, hxc⟩ := assemble_mem hx
      have hne : n ≠ c.1 := fun e => hn.1 (List.mem_map.mpr ⟨c, hcm, e.symm⟩)
      have := underSpec_other hname (hc c (List.mem_cons_of_mem _ hcm)) hne c.2
      rw [List.filter_eq_nil_iff] at this
      exact this x hxc hp
    · have hm' : (name, Spec.dict its) ∈ cs := by
        rcases List.mem_cons.mp hm with h | h
        · exact absurd (Prod.mk.inj h).1.symm e
        · exact h
      rw [underSpec_other hname (hc _ (List.mem_cons_self ..)) (Ne.symm e), List.nil_append,
        assemble_filter hn.2 (fun c h => hc c (List.mem_cons_of_mem _ h)) hm']

/-- The specification which is found for a nested component. -/
theorem component_nested {cs : List (Name × Spec)} (hn : (cs.map (·.1)).Nodup) (hc : ∀ c ∈ cs, '_' ∉ c.1) {name : Name}
    {its : List (Name × Leaf)} (hm : (name, Spec.dict its) ∈ cs) {l : Leaf}
    (h : (Spec.dict (assemble cs)).component name = .ok l) : ∃ m, its = [(m, l)] := by
  rw [Spec.component, Spec.find, assemble_find hn hc hm] at h
  dsimp only at h
  rw [Spec.only, assemble_filter hn hc hm, underSpec] at h
  match its, h with
  | [], h => simp at h
  | [x], h =>
    simp only [List.map_cons, List.map_nil, Except.ok.injEq] at h
    subst h
    exact ⟨x.1, rfl⟩
  | _ :: _ :: _, h => simp at h

/-- The components of a tuple. -/
theorem tuple_assemble (inf : Bool) : ∀ (ss : List Space) (n : Nat) (items : List (Name × Leaf)), tupleForm inf n ss = .ok items →
    ∃ cs : List (Name × Spec), items = assemble cs ∧ cs.length = ss.length ∧ (∀ c ∈ cs, '_' ∉ c.1) ∧ (cs.map (·.1)).Nodup ∧
      (∀ c ∈ cs, ∃ i, n ≤ i ∧ c.1 = tpl ++ digits i) ∧
      ∀ k s, ss[k]? = some s → ∃ sp, specs inf none none s = .ok sp ∧ (tpl ++ digits (n + k), sp) ∈ cs
  | [], n, items, h => by
    simp only [tupleForm, Except.ok.injEq] at h
    subst h
    exact ⟨[], rfl, rfl, by simp, by simp, by simp, by simp⟩
  | s :: ss, n, items, h => by
    rw [tupleForm] at h
    cases hsp : specs inf none none s with
    | error e => rw [hsp] at h; simp at h
    | ok sp =>
      rw [hsp] at h
      dsimp only at h
      cases hr : tupleForm inf (n + 1) ss with
      | error e => rw [hr] at h; simp at h
      | ok rest =>
        rw [hr] at h
        simp only [Except.ok.injEq] at h
        subst h
        obtain ⟨cs, h1, h2, h3, h4, h5, h6⟩ := tuple_assemble inf ss (n + 1) rest hr
        refine ⟨(tpl ++ digits n, sp) :: cs, by rw [assemble, h1], by simp [h2], ?_, ?_, ?_, ?_⟩
        · intro c hc
          rcases List.mem_cons.mp hc with rfl | hc
          · exact tpl_clean n
          · exact h3 c hc
        · rw [List.map_cons, List.nodup_cons]
          refine ⟨?_, h4⟩
          intro hm
          obtain ⟨c, hc, e⟩ := List.mem_map.mp hm
          obtain ⟨i, hi, e'⟩ := h5 c hc
          have := tpl_digits_inj (e'.symm.trans e)
          omega
        · intro c hc
          rcases List.mem_cons.mp hc with rfl | hc
          · exact ⟨n, Nat.le_refl n, rfl⟩
          · obtain ⟨i, hi, e⟩ := h5 c hc
            exact ⟨i, by omega, e⟩
        · intro k t hk
          cases k with
          | zero =>
            simp only [List.getElem?_cons_zero, Option.some.injEq] at hk
            subst hk
            exact ⟨sp, hsp, by simp⟩
          | succ k =>
            simp only [List.getElem?_cons_succ] at hk
            obtain ⟨sp', g1, g2⟩ := h6 k t hk
            refine ⟨sp', g1, List.mem_cons_of_mem _ ?_⟩
            rw [show n + (k + 1) = n + 1 + k by omega]
            exact g2

/-- The components of a dictionary. -/
theorem dict_assemble (inf : Bool) : ∀ (ss : List (Name × Space)) (items : List (Name × Leaf)), dictForm inf ss = .ok items →
    ∃ cs : List (Name × Spec), items = assemble cs ∧ cs.map (·.1) = ss.map (·.1) ∧
      ∀ x ∈ ss, ∃ sp, specs inf none none x.2 = .ok sp ∧ (x.1, sp) ∈ cs
  | [], items, h => by
    simp only [dictForm, Except.ok.injEq] at h
    subst h
    exact ⟨[], rfl, rfl, by simp⟩
  | (name, s) :: ss, items, h => by
    rw [dictForm] at h
    cases hsp : specs inf none none s with
    | error e => rw [hsp] at h; simp at h
    | ok sp =>
      rw [hsp] at h
      dsimp only at h
      cases hr : dictForm inf ss with
      | error e => rw [hr] at h; simp at h
      | ok rest =>
        rw [hr] at h
        simp only [Except.ok.injEq] at h
        subst h
        obtain ⟨cs, h1, h2, h3⟩ := dict_assemble inf ss rest hr
        refine ⟨(name, sp) :: cs, by rw [assemble, h1], by simp [h2], ?_⟩
        intro x hx
        rcases List.mem_cons.mp hx with rfl | hx
        · exact ⟨sp, hsp, List.mem_cons_self ..⟩
        · obtain ⟨sp', g1, g2⟩ := h3 x hx
          exact ⟨sp', g1, List.mem_cons_of_mem _ g2⟩

/-- A nested component has a dictionary of specifications, and its elements are not converted by the specification of one of them. -/
theorem nested_fails {inf : Bool} {s : Space} (hw : s.wf = true) (hg : s.goodNames = true) (hs : s.simple = false) {sp : Spec}
    (hsp : specs inf none none s = .ok sp) : ∃ its, sp = .dict its ∧ ∀ m l, its = [(m, l)] → ∀ v, s.mem v = true →
      ∀ f, flattenState (.leaf l) none v ≠ .ok f := by
  cases s with
  | discrete n => simp [Space.simple] at hs
  | multiBinary n => simp [Space.simple] at hs
  | box _ _ _ => simp [Space.simple] at hs
  | other => simp [Space.wf] at hw
  | multiDiscrete shape nvec =>
    simp only [Space.simple] at hs
    simp only [Space.wf, Bool.and_eq_true, decide_eq_true_eq] at hw
    rw [specs_mdc hw.1.1.2 hs] at hsp
    simp only [Except.ok.injEq] at hsp
    subst hsp
    refine ⟨_, rfl, ?_⟩
    intro m l h
    match nvec, hs, h with
    | [], hs, h => simp [uniform] at hs
    | [x], hs, h => simp [uniform] at hs
    | x :: y :: rest, hs, h => simp [mdcForm] at h
  | tuple ss =>
    simp only [Space.wf] at hw
    simp only [Space.goodNames] at hg
    rw [specs_tuple hw hg] at hsp
    obtain ⟨items, hi, rfl⟩ := except_map_ok hsp
    refine ⟨items, rfl, ?_⟩
    intro m l h v hv f hf
    cases v with
    | array a => simp [Space.mem] at hv
    | dict vs => simp [Space.mem] at hv
    | tuple vs =>
      rw [Space.mem] at hv
      cases ss with
      | nil =>
        simp only [tupleForm, Except.ok.injEq] at hi
        rw [← hi] at h
        simp at h
      | cons s ss =>
        cases vs with
        | nil => simp [memTuple] at hv
        | cons v vs => simp [flattenState, flattenTuple, Spec.component, Spec.find, Spec.only] at hf
  | dict ss =>
    simp only [Space.wf, Bool.and_eq_true, decide_eq_true_eq] at hw
    simp only [Space.goodNames] at hg
    rw [specs_dict hw.1 hw.2 hg] at hsp
    obtain ⟨items, hi, rfl⟩ := except_map_ok hsp
    refine ⟨items, rfl, ?_⟩
    intro m l h v hv f hf
    cases v with
    | array a => simp [Space.mem] at hv
    | tuple vs => simp [Space.mem] at hv
    | dict vs =>
      rw [Space.mem] at hv
      cases ss with
      | nil =>
        simp only [dictForm, Except.ok.injEq] at hi
        rw [← hi] at h
        simp at h
      | cons s ss =>
        cases vs with
        | nil => simp [memDict] at hv
        | cons v vs => simp [flattenState, popMasks, maskNames, flattenDict, Spec.component, Spec.find, Spec.only] at hf

theorem flattenTuple_fails (spec : Spec) : ∀ (ss : List Space) (vs : List Value) (n : Nat), memTuple ss vs = true →
    (∃ k s, ss[k]? = some s ∧ ∀ l, spec.component (tpl ++ digits (n + k)) = .ok l → ∀ v, s.mem v = true →
      ∀ f, flattenState (.leaf l) none v ≠ .ok f) → ∀ acc f, flattenTuple spec n vs acc ≠ .ok f
  | [], vs, n, _, ⟨k, s, hk, _⟩, _, _ => by simp at hk
  | s :: ss, [], n, hm, _, _, _ => by simp [memTuple] at hm
  | s :: ss, v :: vs, n, hm, ⟨k, t, hk, hbad⟩, acc, f => by
    simp only [memTuple, Bool.and_eq_true] at hm
    intro h
    rw [flattenTuple] at h
    cases hcomp : spec.component (tpl ++ digits n) with
    | error e => rw [hcomp] at h; simp at h
    | ok l =>
      rw [hcomp] at h
      dsimp only at h
      cases hf : flattenState (.leaf l) none v with
      | error e => rw [hf] at h; simp at h
      | ok g =>
        rw [hf] at h
        dsimp only at h
        cases k with
        | zero =>
          simp only [List.getElem?_cons_zero, Option.some.injEq] at hk
          subst hk
          exact hbad l hcomp v hm.1 g hf
        | succ k =>
          simp only [List.getElem?_cons_succ] at hk
          exact flattenTuple_fails spec ss vs (n + 1) hm.2
            ⟨k, t, hk, by rw [show n + 1 + k = n + (k + 1) by omega]; exact hbad⟩ _ f h

theorem flattenDict_fails (spec : Spec) (moved : List Name) : ∀ (ss : List (Name × Space)) (vs : List (Name × Value)),
    memDict ss vs = true → (∀ x ∈ ss, x.1 ∉ moved) →
    (∃ x ∈ ss, ∀ l, spec.component x.1 = .ok l → ∀ v, x.2.mem v = true → ∀ f, flattenState (.leaf l) none v ≠ .ok f) →
    ∀ acc f, flattenDict spec moved vs acc ≠ .ok f
  | [], vs, _, _, ⟨x, hx, _⟩, _, _ => by simp at hx
  | s :: ss, [], hm, _, _, _, _ => by simp [memDict] at hm
  | (n, s) :: ss, (m, v) :: vs, hm, hmv, ⟨x, hx, hbad⟩, acc, f => by
    simp only [memDict, Bool.and_eq_true, beq_iff_eq] at hm
    obtain ⟨⟨e, hm⟩, hm'⟩ := hm
    subst e
    intro h
    rw [flattenDict, if_neg (hmv _ (List.mem_cons_self ..))] at h
    cases hcomp : spec.component n with
    | error e => rw [hcomp] at h; simp at h
    | ok l =>
      rw [hcomp] at h
      dsimp only at h
      cases hf : flattenState (.leaf l) none v with
      | error e => rw [hf] at h; simp at h
      | ok g =>
        rw [hf] at h
        dsimp only at h
        rcases List.mem_cons.mp hx with rfl | hx
        · exact hbad l hcomp v hm g hf
        · exact flattenDict_fails spec moved ss vs hm' (fun y hy => hmv y (List.mem_cons_of_mem _ hy)) ⟨x, hx, hbad⟩ _ f h

/-- Outside the supported observation spaces no element is converted to what the specification says. -/
theorem deep_fails {inf : Bool} {s : Space} (hw : s.wf = true) (hg : s.goodNames = true) (hs : s.shallow = false) (actions : Option Spec)
    (hk : ∀ n ∈ maskNames actions, n ∉ s.keys) {sp : Spec} (hsp : specs inf none none s = .ok sp) {v : Value} (hv : s.mem v = true)
    {f : Flat} (hf : flattenState sp actions v = .ok f) : sp.fits f = false := by
  cases s with
  | discrete n => simp [Space.shallow, Space.simple] at hs
  | multiBinary n => simp [Space.shallow, Space.simple] at hs
  | box _ _ _ => simp [Space.shallow, Space.simple] at hs
  | other => simp [Space.wf] at hw
  | multiDiscrete shape nvec =>
    simp only [Space.shallow, Space.simple] at hs
    simp only [Space.wf, Bool.and_eq_true, decide_eq_true_eq] at hw
    rw [specs_mdc hw.1.1.2 hs] at hsp
    simp only [Except.ok.injEq] at hsp
    subst hsp
    cases v with
    | tuple vs => simp [Space.mem] at hv
    | dict vs => simp [Space.mem] at hv
    | array a =>
      have hnot : ∀ pre : Name, '_' ∉ pre → (Spec.find pre (.dict (mdcForm (shapeName shape) 0 nvec))).isSome = false := by
        intro pre hp
        rw [Spec.find, look_none]
        · rfl
        · intro x hx e
          obtain ⟨i, -, -, h3⟩ := mdcForm_names nvec 0 x hx
          rw [h3] at e
          exact hp (e ▸ by simp)
      rw [flattenState, flattenArr, hnot _ (by decide), hnot _ (by decide)] at hf
      split at hf
      · simp at hf
      · simp only [Bool.false_eq_true, if_false, Except.ok.injEq] at hf
        subst hf
        rfl
  | tuple ss =>
    have hs' : ∃ s ∈ ss, s.simple = false := by
      simpa [Space.shallow] using hs
    obtain ⟨s, hmem, hns⟩ := hs'
    obtain ⟨k, hk', hks⟩ := List.mem_iff_getElem.mp hmem
    simp only [Space.wf] at hw
    simp only [Space.goodNames] at hg
    rw [specs_tuple hw hg] at hsp
    obtain ⟨items, hi, rfl⟩ := except_map_ok hsp
    cases v with
    | array a => simp [Space.mem] at hv
    | dict vs => simp [Space.mem] at hv
    | tuple vs =>
      rw [Space.mem] at hv
      rw [flattenState] at hf
      obtain ⟨cs, h1, h2, h3, h4, h5, h6⟩ := tuple_assemble inf ss 0 items hi
      refine absurd hf (flattenTuple_fails _ ss vs 0 hv ⟨k, s, by rw [List.getElem?_eq_getElem hk', hks], ?_⟩ _ f)
      intro l hl v hv'
      obtain ⟨sp, g1, g2⟩ := h6 k s (by rw [List.getElem?_eq_getElem hk', hks])
      obtain ⟨its, rfl, hbad⟩ := nested_fails (wfTuple_mem hw s hmem) (goodNamesTuple_mem hg s hmem) hns g1
      rw [h1] at hl
      obtain ⟨m, e⟩ := component_nested h4 h3 g2 hl
      exact hbad m l e v hv'
  | dict ss =>
    have hs' : ∃ x ∈ ss, x.2.simple = false := by
      simpa [Space.shallow] using hs
    obtain ⟨x, hmem, hns⟩ := hs'
    simp only [Space.wf, Bool.and_eq_true, decide_eq_true_eq] at hw
    simp only [Space.goodNames] at hg
    have hc : ∀ x ∈ ss, '_' ∉ x.1 := fun x hx => (goodName_iff.mp (goodNamesDict_mem hg x hx).1).1
    rw [specs_dict hw.1 hw.2 hg] at hsp
    obtain ⟨items, hi, rfl⟩ := except_map_ok hsp
    cases v with
    | array a => simp [Space.mem] at hv
    | tuple vs => simp [Space.mem] at hv
    | dict vs =>
      rw [Space.mem] at hv
      rw [flattenState, popMasks_none (fun n hn => by rw [memDict_names hv]; exact hk n hn)] at hf
      dsimp only at hf
      obtain ⟨cs, h1, h2, h3⟩ := dict_assemble inf ss items hi
      refine absurd hf (flattenDict_fails _ _ ss vs hv (fun y hy h => hk y.1 h (List.mem_map.mpr ⟨y, hy, rfl⟩)) ⟨x, hmem, ?_⟩ _ f)
      intro l hl v hv'
      obtain ⟨sp, g1, g2⟩ := h3 x hmem
      obtain ⟨its, rfl, hbad⟩ := nested_fails (wfDict_mem hw.1 x hmem) (goodNamesDict_mem hg x hmem).2 hns g1
      rw [h1] at hl
      have hcc : ∀ c ∈ cs, '_' ∉ c.1 := by
        intro c hcm
        have : c.1 ∈ ss.map (·.1) := h2 ▸ List.mem_map.mpr ⟨c, hcm, rfl⟩
        obtain ⟨y, hy, e⟩ := List.mem_map.mp this
        rw [← e]
        exact hc y hy
      obtain ⟨m, e⟩ := component_nested (h2 ▸ hw.2) hcc g2 hl
      exact hbad m l e v hv'

end Verif.Gym
