import Verif.Wrap.Lemmas

/-!
# C128: the optimizer wrapper

The wrapped optimizer consists of the requested modifications in the documented order around the specified optimizer.
-/

namespace Verif.Props.OptWrap

open Verif.Wrap

/-- For documented values the created optimizer has exactly the requested modifications, each once, in the documented order, and the innermost
optimizer has exactly the specified arguments. -/
theorem nested (g : Given) (a : Arguments) (ha : Documented a) (hf : (a.further.map (·.1)).Nodup) {t : Tree} (ht : create g a = .ok t) :
    ∃ ms e, Nested t ms e ∧ Requested a ms ∧ Specified g a e := by
  obtain ⟨t', ms, hw, hn, hr⟩ := wrap_nested g a ha
  refine ⟨ms, inner g a, ?_, hr, specified g a hf⟩
  unfold create at ht
  rw [hw] at ht
  dsimp only at ht
  split at ht
  · cases ht
  · rw [← Except.ok.inj ht]
    exact hn

example : create (.other (.spec "adam")) { steps := .int 5, clipping := some (.float 1) } =
    .ok (.clipping (.float 1) (.multi (.int 5) (.base [("type", .spec "adam"), ("learning_rate", .float (1 / 1000))]))) := by decide +kernel

/-- For documented values the optimizers of TensorFlow, however specified, are accepted. -/
theorem accepted (g : Given) (a : Arguments) (ha : Documented a) (hf : (a.further.map (·.1)).Nodup) (s : String)
    (hs : s ∈ ["adadelta", "adagrad", "adam", "adamax", "ftrl", "nadam", "rmsprop", "sgd"])
    (hg : g = .other (.spec s) ∨ ∃ d, g = .dict d ∧ Has d "type" (.spec s) ∧
      ∀ v, Has d "learning_rate" v → IsSpec v ∨ ∃ x, v = .float x ∧ 0 < x)
    (ht : Lacks a.further "type") (hl : Lacks a.further "learning_rate") :
    ∃ t, create g a = .ok t := by
  have hsp := specified g a hf
  have htype : (inner g a).lookup "type" = some (.spec s) := by
    rw [← has_iff]
    rcases hg with hg | ⟨d, hg, hd, _⟩
    · exact hsp.type_ _ hg ht
    · exact hsp.own d _ _ hg ht hd
  have hrate : ∃ v, (inner g a).lookup "learning_rate" = some v ∧ (IsSpec v ∨ ∃ x, v = .float x ∧ 0 < x) := by
    rcases hg with hg | ⟨d, hg, _, hd⟩
    · exact ⟨a.rate, (has_iff _ _ _).1 (hsp.otherRate _ hg hl), ha.rate⟩
    · cases h : d.lookup "learning_rate" with
      | none => exact ⟨a.rate, (has_iff _ _ _).1 (hsp.rate d hg hl ((lacks_iff _ _).2 h)), ha.rate⟩
      | some v =>
        have hv := (has_iff _ _ _).2 h
        exact ⟨v, (has_iff _ _ _).1 (hsp.own d _ _ hg hl hv), hd v hv⟩
  obtain ⟨v, hv, hv'⟩ := hrate
  have hc : construct (inner g a) = .ok () := construct_tf htype hs hv (checkFloat_ok hv')
  refine ⟨addClipping a (addMulti a (addSubsampling a (addLinesearch a (addDoublecheck a (.base (inner g a)))))), ?_⟩
  unfold create wrap
  rw [if_neg (by rw [ha.deprecated]; exact nofun)]
  dsimp only
  rw [build_ok ha hc]

example : ∃ t, create (.dict [("type", .spec "sgd"), ("momentum", .float (1 / 2))]) {} = .ok t :=
  ⟨.base [("type", .spec "sgd"), ("momentum", .float (1 / 2)), ("learning_rate", .float (1 / 1000))], by decide +kernel⟩

/-- Further names which need nothing but a learning rate are accepted too. -/
theorem accepted_names (a : Arguments) (ha : Documented a) (hf : a.further = []) (s : String) (hs : Rated s) :
    ∃ t, create (.other (.spec s)) a = .ok t := by
  have hi : inner (.other (.spec s)) a = [("type", .spec s), ("learning_rate", a.rate)] := by
    unfold inner
    rw [hf]
    rfl
  have hc : construct (inner (.other (.spec s)) a) = .ok () := by
    rw [hi]
    have hr := checkFloat_ok ha.rate
    cases hs with
    | tf _ h => exact construct_tf rfl h rfl hr
    | evolutionary => exact hr
    | natural => exact hr
  refine ⟨addClipping a (addMulti a (addSubsampling a (addLinesearch a (addDoublecheck a (.base (inner (.other (.spec s)) a)))))), ?_⟩
  unfold create wrap
  rw [if_neg (by rw [ha.deprecated]; exact nofun)]
  dsimp only
  rw [build_ok ha hc]

example : ∃ t, create (.other (.spec "natural_gradient")) {} = .ok t :=
  ⟨.base [("type", .spec "natural_gradient"), ("learning_rate", .float (1 / 1000))], by decide +kernel⟩

/-- Numbers of a wrong kind, and some outside the documented range, are rejected. Missing: integers and booleans as steps or iterations, and zero as
threshold, fraction or learning rate (`range_violation`). -/
theorem rejected_partial (g : Given) (a : Arguments) {t : Tree} (ht : create g a = .ok t) :
    a.deprecated = false ∧
    (∀ v, a.clipping = some v → IsSpec v ∨ ∃ x, v = .float x ∧ 0 ≤ x) ∧
    (∀ x, a.steps ≠ .float x) ∧ (∀ x, a.iterations ≠ .float x) ∧
    (IsSpec a.fraction ∨ (∃ z, a.fraction = .int z ∧ 1 ≤ z) ∨ ∃ x, a.fraction = .float x ∧ 0 ≤ x ∧ x ≤ 1) := by
  unfold create at ht
  unfold wrap at ht
  by_cases hd : a.deprecated = true
  · rw [if_pos hd] at ht
    cases ht
  rw [if_neg hd] at ht
  dsimp only at ht
  have hb : build (addClipping a (addMulti a (addSubsampling a (addLinesearch a (addDoublecheck a (.base (inner g a))))))) = .ok () := by
    split at ht
    · cases ht
    · assumption
  obtain ⟨h1, hb⟩ := addClipping_ok hb
  obtain ⟨h2, hb⟩ := addMulti_ok hb
  obtain ⟨h3, hb⟩ := addSubsampling_ok hb
  obtain ⟨h4, _⟩ := addLinesearch_ok hb
  exact ⟨Bool.eq_false_iff.2 hd, h1, h2, h4, h3⟩

example : create (.other (.spec "adam")) { clipping := some (.float (-1)) } = .error .value := by decide +kernel
example : create (.other (.spec "adam")) { steps := .float 2 } = .error .dtype := by decide +kernel
example : create (.other (.spec "adam")) { fraction := .int 0 } = .error .value := by decide +kernel

/-- The learning rate of the innermost optimizer is a specification or a non-negative number. -/
theorem rate_rejected_partial (g : Given) (a : Arguments) {t : Tree} (ht : create g a = .ok t) {ms : List Modifier} {e : Entries}
    (hn : Nested t ms e) {v : Value} (hv : Has e "learning_rate" v) : IsSpec v ∨ ∃ x, v = .float x ∧ 0 ≤ x := by
  have hb : build t = .ok () := by
    unfold create at ht
    split at ht
    · cases ht
    · split at ht
      · cases ht
      · rw [← Except.ok.inj ht]
        assumption
  have hc : construct e = .ok () := by
    cases h : construct e with
    | ok u => rfl
    | error err =>
      rw [build_base_error hn h] at hb
      cases hb
  exact construct_rate hc ((has_iff _ _ _).1 hv)

example : create (.other (.spec "adam")) { rate := .int 1 } = .error .dtype := by decide +kernel

/-- Unknown names are rejected. -/
theorem unknown (a : Arguments) (ha : Documented a) (hf : (a.further.map (·.1)).Nodup) (s : String)
    (hs : ¬Rated s) (hu : ¬Unrated s) (hw : s ≠ "optimizer_wrapper") (ht : s ≠ "tf_optimizer") (hl : Lacks a.further "type") :
    create (.other (.spec s)) a = .error .module_ := by
  obtain ⟨t, ms, hwr, hn, _⟩ := wrap_nested (.other (.spec s)) a ha
  have hsp := specified (.other (.spec s)) a hf
  have hc := construct_unknown ((has_iff _ _ _).1 (hsp.type_ _ rfl hl)) hs hu hw ht
  unfold create
  rw [hwr]
  dsimp only
  rw [build_base_error hn hc]

example : create (.other (.spec "adamant")) {} = .error .module_ := by decide +kernel

/-- The update modifiers, the sum of optimizers and synchronization cannot be wrapped, since they have no learning rate. -/
theorem unrated_violation (g : Given) (a : Arguments) (ha : Documented a) (hf : (a.further.map (·.1)).Nodup) (s : String) (hs : Unrated s)
    (hg : g = .other (.spec s) ∨ ∃ d, g = .dict d ∧ Has d "type" (.spec s)) (hl : Lacks a.further "type") :
    create g a = .error .arguments := by
  obtain ⟨t, ms, hwr, hn, _⟩ := wrap_nested g a ha
  have hsp := specified g a hf
  have htype : (inner g a).lookup "type" = some (.spec s) := by
    rw [← has_iff]
    rcases hg with hg | ⟨d, hg, hd⟩
    · exact hsp.type_ _ hg hl
    · exact hsp.own d _ _ hg hl hd
  have hc := construct_unrated htype hs (inner_rate g a hf)
  unfold create
  rw [hwr]
  dsimp only
  rw [build_base_error hn hc]

example : create (.dict [("type", .spec "multi_step"), ("optimizer", .spec "adam"), ("num_steps", .int 5)]) {} = .error .arguments := by
  decide +kernel

/-- The argument `learning_rate` has no effect if the dictionary has one. -/
theorem rate_ignored_violation : ∃ d, ∀ r r' : Value,
    create (.dict d) { rate := r } = create (.dict d) { rate := r' } ∧ ∃ t, create (.dict d) { rate := r } = .ok t :=
  ⟨[("type", .spec "adam"), ("learning_rate", .float 1)], fun _ _ => ⟨rfl, _, rfl⟩⟩

/-- The dictionary of the user is changed: it afterwards has the learning rate and the further arguments. -/
theorem changed_violation (d : Entries) (a : Arguments) (hf : (a.further.map (·.1)).Nodup) (hd : Lacks d "learning_rate")
    (hl : Lacks a.further "learning_rate") :
    ∃ d', after (.dict d) a = .dict d' ∧ Has d' "learning_rate" a.rate ∧ d' ≠ d := by
  have h := (specified (.dict d) a hf).rate d rfl hl hd
  refine ⟨inner (.dict d) a, rfl, h, fun he => ?_⟩
  rw [he] at h
  rw [has_iff, (lacks_iff _ _).1 hd] at h
  cases h

example : after (.dict [("type", .spec "adam")]) {} = .dict [("type", .spec "adam"), ("learning_rate", .float (1 / 1000))] := by
  decide +kernel

/-- Hence two wrappers of the same dictionary both have the learning rate of the first. -/
theorem shared_violation : ∃ d t, create (.dict d) { rate := .float 1 } = .ok t ∧
    create (after (.dict d) { rate := .float 1 }) { rate := .float 2 } = .ok t :=
  ⟨[("type", .spec "adam")], .base [("type", .spec "adam"), ("learning_rate", .float 1)], by decide +kernel, by decide +kernel⟩

/-- Optimizers which need another one, the wrapper itself among them, are refused if none is given, also if no type is. -/
theorem incomplete (g : Given) (a : Arguments) (ha : Documented a) (hf : (a.further.map (·.1)).Nodup) (ho : Lacks a.further "optimizer")
    (hl : Lacks a.further "type")
    (hg : g = .other (.spec "tf_optimizer") ∨ g = .other (.spec "optimizer_wrapper") ∨
      ∃ d, g = .dict d ∧ Lacks d "optimizer" ∧
        (Lacks d "type" ∨ Has d "type" (.spec "tf_optimizer") ∨ Has d "type" (.spec "optimizer_wrapper"))) :
    create g a = .error .arguments := by
  obtain ⟨t, ms, hwr, hn, _⟩ := wrap_nested g a ha
  have hc := construct_incomplete (inner_lacks g a hf ho hg) (inner_type g a hf hl hg)
  unfold create
  rw [hwr]
  dsimp only
  rw [build_base_error hn hc]

example : create (.dict []) {} = .error .arguments := by decide +kernel

/-- A dictionary without type is one of a wrapper, and accepted if it has an optimizer. -/
theorem default_accepted (d : Entries) (a : Arguments) (ha : Documented a) (hf : (a.further.map (·.1)).Nodup) (v : Value)
    (ho : Has d "optimizer" v) (hd : Lacks d "type") (hr : ∀ v, Has d "learning_rate" v → IsSpec v ∨ ∃ x, v = .float x ∧ 0 < x)
    (hl : Lacks a.further "type") (hal : Lacks a.further "learning_rate") (hao : Lacks a.further "optimizer") :
    ∃ t, create (.dict d) a = .ok t := by
  have hsp := specified (.dict d) a hf
  have hopt := (has_iff _ _ _).1 (hsp.own d _ _ rfl hao ho)
  have hrate : ∃ w, (inner (.dict d) a).lookup "learning_rate" = some w ∧ (IsSpec w ∨ ∃ x, w = .float x ∧ 0 < x) := by
    cases h : d.lookup "learning_rate" with
    | none => exact ⟨a.rate, (has_iff _ _ _).1 (hsp.rate d rfl hal ((lacks_iff _ _).2 h)), ha.rate⟩
    | some w =>
      have hw := (has_iff _ _ _).2 h
      exact ⟨w, (has_iff _ _ _).1 (hsp.own d _ _ rfl hal hw), hr w hw⟩
  obtain ⟨w, hw, hw'⟩ := hrate
  have ht : (inner (.dict d) a).lookup "type" = none := by
    unfold inner
    rw [lookup_update _ _ _ hf, (lacks_iff _ _).1 hl, lookup_withRate_dict, if_neg (by decide), (lacks_iff _ _).1 hd]
    rfl
  have hc : construct (inner (.dict d) a) = .ok () := construct_default ht hopt hw (checkFloat_ok hw')
  refine ⟨addClipping a (addMulti a (addSubsampling a (addLinesearch a (addDoublecheck a (.base (inner (.dict d) a)))))), ?_⟩
  unfold create wrap
  rw [if_neg (by rw [ha.deprecated]; exact nofun)]
  dsimp only
  rw [build_ok ha hc]

example : create (.dict [("optimizer", .spec "adam")]) {} =
    .ok (.base [("optimizer", .spec "adam"), ("learning_rate", .float (1 / 1000))]) := by decide +kernel

/-- Values outside the documented range are accepted, and then have no effect or stop learning. -/
theorem range_violation : ∃ t,
    create (.other (.spec "adam")) {} = .ok t ∧
    create (.other (.spec "adam")) { steps := .int 0 } = .ok t ∧
    create (.other (.spec "adam")) { steps := .int (-3) } = .ok t ∧
    create (.other (.spec "adam")) { steps := .bool true } = .ok t ∧
    create (.other (.spec "adam")) { iterations := .int (-1) } = .ok t ∧
    create (.other (.spec "adam")) { iterations := .bool false } = .ok t ∧
    create (.other (.spec "adam")) { clipping := some (.float 0) } = .ok (.clipping (.float 0) t) ∧
    create (.other (.spec "adam")) { fraction := .float 0 } = .ok (.subsampling (.float 0) t) ∧
    create (.other (.spec "adam")) { rate := .float 0 } = .ok (.base [("type", .spec "adam"), ("learning_rate", .float 0)]) :=
  ⟨.base [("type", .spec "adam"), ("learning_rate", .float (1 / 1000))], by decide +kernel, by decide +kernel, by decide +kernel,
    by decide +kernel, by decide +kernel, by decide +kernel, by decide +kernel, by decide +kernel, by decide +kernel⟩

end Verif.Props.OptWrap
