import Verif.Store.ArchiveLemmas

/-! # C41: variables survive saving and restoring an archive -/

namespace Verif.Props.Archive

open Verif.Store

variable {V : Type}

/-- Restoring `vars`, saved by the model `model`, into the variables `names` of the model `model'` gives back the values. -/
def RoundTrip (save : Name → Vars V → Except ArchiveError α) (restore : Name → List Name → α → Except ArchiveError (List V))
    (model : Name) (vars : Vars V) (model' : Name) (names : List Name) : Prop :=
  ∃ a, save model vars = .ok a ∧ restore model' names a = .ok (vars.map Prod.snd)

/-- The names accepted are those ending with a colon and one character, as TensorFlow makes them for the first ten outputs. -/
theorem wellNamed_iff (n : Name) : wellNamed n = true ↔ ∃ base d, n = base ++ [':', d] := by
  unfold wellNamed
  rw [Bool.and_eq_true, decide_eq_true_eq, decide_eq_true_eq]
  constructor
  · rintro ⟨h1, h2⟩
    obtain ⟨l, d, rfl⟩ := (List.eq_nil_or_concat n).resolve_left (by rintro rfl; simp at h1)
    rw [List.concat_eq_append] at *
    obtain ⟨l, c, rfl⟩ := (List.eq_nil_or_concat l).resolve_left (by rintro rfl; simp at h1)
    rw [List.concat_eq_append] at *
    simp only [List.append_assoc, List.cons_append, List.nil_append, List.length_append, List.length_cons, List.length_nil, Nat.zero_add, Nat.reduceAdd,
      Nat.add_sub_cancel, List.getElem?_append_right (Nat.le_refl _), Nat.sub_self, List.getElem?_cons_zero, Option.some.injEq] at h2
    exact ⟨l, d, by simp [h2]⟩
  · rintro ⟨base, d, rfl⟩
    simp

example : wellNamed "agent/step:0".toList = true := (wellNamed_iff _).mpr ⟨"agent/step".toList, '0', rfl⟩

/-- A variable of the model is stored under its name without the name of the model and the output number … -/
theorem key_own (model base : Name) (d : Char) : keyOf model (model ++ '/' :: base ++ [':', d]) = base := by
  unfold keyOf
  rw [if_pos (List.isPrefixOf_iff_prefix.mpr ⟨base ++ [':', d], by simp⟩)]
  have e : (model ++ '/' :: base ++ [':', d]).length - 2 = (model ++ '/' :: base).length := by
    simp only [List.length_append, List.length_cons, List.length_nil]; omega
  rw [slice, e, List.take_left, show model.length + 1 = (model ++ ['/']).length by simp, show model ++ '/' :: base = (model ++ ['/']) ++ base by simp,
    List.drop_left]

example : keyOf "agent".toList "agent/policy/weights:0".toList = "policy/weights".toList := key_own "agent".toList "policy/weights".toList '0'

/-- … and any other one under its full name without the output number, in particular one whose name merely begins with the same letters. -/
theorem key_other {model base : Name} (d : Char) (h : ∀ rest, base ++ [':', d] ≠ model ++ '/' :: rest) : keyOf model (base ++ [':', d]) = base := by
  unfold keyOf
  rw [if_neg]
  · simp [dropEnd]
  · intro hp
    obtain ⟨rest, e⟩ := List.isPrefixOf_iff_prefix.mp hp
    exact h rest (by rw [← e]; simp)

example : keyOf "agent".toList "agents/weights:0".toList = "agents/weights".toList :=
  key_other (model := "agent".toList) (base := "agents/weights".toList) '0' fun rest h =>
    absurd (show some 's' = some '/' from congrArg (·[5]?) h) (by decide)

/-- Numpy: if the names of the variables, without the name of the model and the output number, differ and none of them is `file`, every
variable gets its saved value, in the same model or in another one with the same names (also under another model name). Missing: equal
names (`collision_violation`) and the name `file` (`file_violation`). -/
theorem numpy_partial {model model' : Name} {vars : Vars V} {names : List Name} (hw : ∀ n ∈ vars.map Prod.fst, wellNamed n = true)
    (hw' : ∀ n ∈ names, wellNamed n = true) (hk : keys model' names = keys model (vars.map Prod.fst))
    (hd : (keys model (vars.map Prod.fst)).Nodup) (hf : file ∉ keys model (vars.map Prod.fst)) :
    RoundTrip saveNumpy restoreNumpy model vars model' names := by
  obtain ⟨a, h1, h2⟩ := collect_ok (model := model) (a := []) hw
  refine ⟨a, ?_, assignAll_ok hw' ?_⟩
  · rw [saveNumpy, h1]; dsimp only
    rw [if_neg fun h => (h2 _ h).elim (by simp) hf]
  · rw [hk]
    simp only [keys, List.map_map]
    refine List.map_congr_left fun e he => ?_
    have := collect_lookup h1 (keyOf model e.1)
    rw [lastWith_nodup hd he] at this
    simpa using this

/-- Example names as TensorFlow makes them. -/
def variables : Vars Nat := [("agent/policy/dense/weights:0".toList, 7), ("agent/timesteps:0".toList, 8), ("optimizer/m:0".toList, 9)]

example : RoundTrip saveNumpy restoreNumpy "agent".toList variables "agent".toList (variables.map Prod.fst) :=
  numpy_partial (by decide +kernel) (by decide +kernel) rfl (by decide +kernel) (by decide +kernel)
example : RoundTrip saveNumpy restoreNumpy "agent".toList variables "copy".toList
    ["copy/policy/dense/weights:0".toList, "copy/timesteps:0".toList, "optimizer/m:0".toList] :=
  numpy_partial (by decide +kernel) (by decide +kernel) (by decide +kernel) (by decide +kernel) (by decide +kernel)

/-- Numpy, whatever the names: if saving and restoring succeed, every variable gets the value of the last variable with its archive name. -/
theorem numpy_last {model : Name} {vars a : Vars V} {vs : List V} (hs : saveNumpy model vars = .ok a)
    (hr : restoreNumpy model (vars.map Prod.fst) a = .ok vs) : vs.map some = vars.map fun e => lastWith model vars (keyOf model e.1) := by
  unfold saveNumpy at hs
  split at hs
  · cases hs
  · rename_i a' hc
    split at hs
    · cases hs
    · cases hs
      rw [← assignAll_inv hr]
      simp only [keys, List.map_map]
      refine List.map_congr_left fun e _ => ?_
      simpa using collect_lookup hc (keyOf model e.1)

example : (saveNumpy "agent".toList [("agent/step:0".toList, 1), ("step:0".toList, 2)]).toOption = some [("step".toList, 2)] := by decide +kernel

/-- HDF5: the same if no name is a path above another one; then the name `file` does no harm. Missing: equal names
(`collision_hdf5_violation`), a variable named like a module (`nested_violation`). -/
theorem hdf5_partial {model model' : Name} {vars : Vars V} {names : List Name} (hw : ∀ n ∈ vars.map Prod.fst, wellNamed n = true)
    (hw' : ∀ n ∈ names, wellNamed n = true) (hk : keys model' names = keys model (vars.map Prod.fst))
    (hd : Disjoint (paths model (vars.map Prod.fst))) :
    RoundTrip (fun m v => saveHdf5 m v []) restoreHdf5 model vars model' names := by
  refine ⟨_, saveHdf5_ok hw (by simpa using hd), assignAll_ok hw' ?_⟩
  rw [hk]
  simp only [keys, List.map_map]
  refine List.map_congr_left fun e he => ?_
  refine lookup_disjoint ?_ (by simp only [List.nil_append, List.mem_map]; exact ⟨e, he, rfl⟩)
  simpa [paths, keys, Function.comp_def] using hd

example : RoundTrip (fun m v => saveHdf5 m v []) restoreHdf5 "agent".toList variables "agent".toList (variables.map Prod.fst) :=
  hdf5_partial (by decide +kernel) (by decide +kernel) rfl ⟨by decide +kernel, by decide +kernel⟩

/-- HDF5 archives are written exactly if the names are disjoint paths. -/
theorem hdf5_written_iff {model : Name} {vars : Vars V} (hw : ∀ n ∈ vars.map Prod.fst, wellNamed n = true) :
    (∃ a, saveHdf5 model vars [] = .ok a) ↔ Disjoint (paths model (vars.map Prod.fst)) := by
  constructor
  · rintro ⟨a, h⟩
    simpa using saveHdf5_inv h ⟨by simp, by simp⟩
  · intro h
    exact ⟨_, saveHdf5_ok hw (by simpa using h)⟩

example : ∃ a, saveHdf5 "agent".toList variables [] = .ok a := (hdf5_written_iff (by decide +kernel)).mpr ⟨by decide +kernel, by decide +kernel⟩

/-! ## Violations -/

/-- Two variables that differ only in the name of the model or the output number, with different values: a numpy archive does not give both
back. -/
theorem collision_violation {model : Name} {vars : Vars V} {n m : Name} {v w : V} (h1 : (n, v) ∈ vars) (h2 : (m, w) ∈ vars)
    (hk : keyOf model n = keyOf model m) (hne : v ≠ w) : ¬ RoundTrip saveNumpy restoreNumpy model vars model (vars.map Prod.fst) := by
  rintro ⟨a, -, hr⟩
  have h := assignAll_inv hr
  simp only [keys, List.map_map] at h
  have h := List.map_inj_left.mp h
  have e1 := h _ h1
  have e2 := h _ h2
  simp only [Function.comp_apply] at e1 e2
  rw [hk, e2] at e1
  exact hne (Option.some.inj e1).symm

example : ¬ RoundTrip saveNumpy restoreNumpy "agent".toList [("agent/step:0".toList, 1), ("step:0".toList, 2)] "agent".toList
    ["agent/step:0".toList, "step:0".toList] :=
  collision_violation (List.mem_cons_self ..) (List.mem_cons_of_mem _ (List.mem_cons_self ..)) (by decide +kernel) (by decide)

/-- With HDF5 they cannot be saved. -/
theorem collision_hdf5_violation {model : Name} {l1 l2 l3 : Vars V} {n m : Name} {v w : V} (hk : path (keyOf model n) <+: path (keyOf model m))
    (a : List (List Name × V)) : saveHdf5 model (l1 ++ (n, v) :: l2 ++ (m, w) :: l3) [] ≠ .ok a := by
  intro h
  have := (saveHdf5_inv h ⟨by simp, by simp⟩).2
  simp only [List.map_nil, List.nil_append, paths, keys, List.map_append, List.map_cons, List.append_assoc, List.cons_append, List.pairwise_append,
    List.pairwise_cons] at this
  exact (this.2.1.1 _ (by simp)).1 hk

example (a : List (List Name × Nat)) : saveHdf5 "agent".toList [("agent/step:0".toList, 1), ("step:0".toList, 2)] [] ≠ .ok a :=
  collision_hdf5_violation (l1 := []) (l2 := []) (l3 := []) (n := "agent/step:0".toList) (m := "step:0".toList) (by decide +kernel) a

/-- Nor a variable with the name of a module that has variables. -/
theorem nested_violation (a : List (List Name × Nat)) : saveHdf5 "agent".toList [("agent/policy:0".toList, 1), ("agent/policy/weights:0".toList, 2)] [] ≠ .ok a :=
  collision_hdf5_violation (l1 := []) (l2 := []) (l3 := []) (n := "agent/policy:0".toList) (m := "agent/policy/weights:0".toList) (by decide +kernel) a

/-- A variable named `file` cannot be saved as numpy archive. -/
theorem file_violation {model : Name} {vars : Vars V} (hf : file ∈ keys model (vars.map Prod.fst)) (a : Vars V) : saveNumpy model vars ≠ .ok a := by
  intro h
  unfold saveNumpy at h
  split at h
  · cases h
  · rename_i a' hc
    split at h
    · cases h
    · rename_i hn
      refine hn ?_
      obtain ⟨n, hn1, hn2⟩ := List.mem_map.mp hf
      obtain ⟨e, he1, he2⟩ := List.mem_map.mp hn1
      have hl := collect_lookup hc file
      have hs : lastWith model vars file ≠ none := by
        simp only [lastWith, ne_eq, Option.map_eq_none_iff, List.find?_eq_none]
        intro hall
        exact hall e (by simpa using he1) (by simp [he2, hn2])
      cases hw : lastWith model vars file with
      | none => exact absurd hw hs
      | some v =>
        rw [hw] at hl
        simp only [Option.some_or] at hl
        have := List.lookup_eq_some_iff.mp hl
        obtain ⟨l1, l2, e, -⟩ := this
        rw [e]; simp

example : file ∈ keys "agent".toList ["agent/file:0".toList] := by decide +kernel

/-- Output numbers of two digits are refused. -/
theorem output_number_violation : (saveNumpy "agent".toList [("agent/split:10".toList, 1)]) = .error .assertion := by rfl

/-! ## The memory -/

open Verif.Memory

/-- `Model.restore` ends with a reset (`core/models/model.py` 978, `core/models/tensorforce.py` 930-941). It leaves a memory alone that was
saved between episodes. -/
theorem memory_between_episodes (q q' : Queue V) (h : q.term[q.lastIndex]? ≠ some 3) (hr : q.reset = .ok q') : q' = q := by
  unfold Queue.reset at hr
  dsimp only at hr
  split at hr
  · cases hr
  · rename_i lt hlt
    have hlt3 : lt ≠ 3 := fun e => h (by rw [hlt, e])
    simp only [if_neg hlt3] at hr
    split at hr
    · cases hr
    · split at hr
      · cases hr
      · split at hr
        · cases hr
        · cases hr; rfl

example : ((Queue.init 3 (0 : Nat)).reset).toOption = some (Queue.init 3 0) := by decide +kernel

/-- A memory saved within an episode never gets its saved value back: the reset ends the episode. -/
theorem unfinished_episode_violation (q q' : Queue V) (h : q.term[q.lastIndex]? = some 3) (hr : q.reset = .ok q') :
    q' ≠ q ∧ q'.ec = q.ec + 1 ∧ q'.term = q.term.set q.lastIndex 2 := by
  have key : q'.ec = q.ec + 1 ∧ q'.term = q.term.set q.lastIndex 2 := by
    have hlen : q.lastIndex < q.term.length := (List.getElem?_eq_some_iff.mp h).1
    unfold Queue.reset at hr
    dsimp only at hr
    rw [h] at hr
    simp only [if_pos, scatter, if_pos hlen] at hr
    split at hr
    · cases hr
    · rename_i q1 hq1
      have hq : q1.ec = q.ec + 1 ∧ q1.term = q.term.set q.lastIndex 2 := by
        split at hq1
        · rename_i e1 e2
          cases hq1
          exact ⟨rfl, (Option.some.inj e1).symm⟩
        · cases hq1
      split at hr
      · cases hr
      · split at hr
        · cases hr
        · split at hr
          · cases hr
          · cases hr; exact hq
  refine ⟨fun e => ?_, key⟩
  have := key.1
  rw [e] at this
  omega

example : ∃ q' : Queue Nat, (Queue.afterEnqueue (Queue.init 3 0) [(5, 0)]).reset = .ok q' ∧
    (Queue.afterEnqueue (Queue.init 3 (0 : Nat)) [(5, 0)]).term[0]? = some 3 ∧ q'.term[0]? = some 2 := by
  refine ⟨⟨3, [5, 0, 0], [2, 0, 1], 1, [2, 0, 0, 0], 1⟩, by rfl, by decide, by decide⟩

end Verif.Props.Archive
