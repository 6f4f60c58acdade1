import Verif.Saver.Lemmas

/-!
# C132: loading an agent

`Agent.load` restores the checkpoint asked for.
-/

namespace Verif.Props.Load

open Verif.Saver

variable {S : Type}

/-- An agent without saver gets the state of the checkpoint named, and no directory is changed. Missing for the property: agents with
saver, see `named_violation`. -/
theorem named_partial (name : String) (d : String) (n : Name) (x : S) (w : World S) (m : Moment S) (h : (w d).files.lookup n = some x) :
    load name .none (some d) (some n) w m = .ok ⟨x, w, none, none⟩ := by
  unfold load loadSaver initModel configure accept agentRestore
  dsimp only [Option.bind_some]
  rw [if_neg nofun]
  rw [h]

example : ∃ w : World Char, (w "d").files.lookup ⟨"agent", 3⟩ = some 'x' := ⟨fun _ => ⟨[(⟨"agent", 3⟩, 'x')], [(⟨"agent", 3⟩, 0)], 0⟩, by decide +kernel⟩

/-- Without file name, an agent without saver gets the state of the latest checkpoint of the directory, and no directory is changed. Missing
for the property: see `slash_violation`. -/
theorem latest_partial (name : String) (d : String) (n : Name) (x : S) (w : World S) (m : Moment S) (t : Int)
    (hl : (w d).listed.getLast? = some (n, t))
    (h : (w d).files.lookup n = some x) (hd : d.toList.getLast? ≠ some '/') :
    load name .none (some d) none w m = .ok ⟨x, w, none, none⟩ := by
  have hr : restore d (w d) = .ok x := restore_ok (n := n) (by unfold Dir.latest; rw [hl]; rfl) h hd
  unfold load loadSaver initModel configure accept agentRestore
  dsimp only [Option.bind_none]
  rw [if_neg nofun]
  rw [hr]

example : ∃ w : World Char, (w "d").listed.getLast? = some (⟨"agent", 3⟩, 0) ∧ (w "d").files.lookup ⟨"agent", 3⟩ = some 'x' ∧ "d".toList.getLast? ≠ some '/' :=
  ⟨fun _ => ⟨[(⟨"agent", 3⟩, 'x')], [(⟨"agent", 3⟩, 0)], 0⟩, by decide +kernel⟩

/-- An agent with documented saver dictionary gets the state of the latest checkpoint of the saver's directory, and no directory is changed; its
saver is as specified. Missing for the property: other directories and file names, see `directory_violation` and `named_violation`. -/
theorem saver_partial {name : String} {e : Entries} {s : Settings} (hs : Documented name e s) (directory : Option String) (n : Name) (x : S)
    (w : World S) (m : Moment S) (t : Int) (hl : (w s.directory).listed.getLast? = some (n, t)) (h : (w s.directory).files.lookup n = some x)
    (hd : s.directory.toList.getLast? ≠ some '/') :
    load name (.dict e) directory none w m = .ok ⟨x, w, some { s with load := true }, none⟩ := by
  have hc : configure name (.dict (put "load" (.bool true) e)) = .ok (some { s with load := true }) := configure_load hs
  have hr : restore s.directory (manager (w s.directory) m.now).dir = .ok x := by
    refine restore_ok (n := n) ?_ h hd
    unfold Dir.latest manager at *
    dsimp only
    rw [List.getLast?_map, hl]
    rfl
  unfold load loadSaver initModel
  dsimp only
  rw [hc]
  dsimp only
  rw [if_pos rfl, hr]
  dsimp only
  rw [if_pos rfl]

example : Documented "agent" [("directory", .str "d"), ("frequency", .int 100)] ⟨"d", "agent", false, 10, .updates, 100, none⟩ :=
  ⟨by decide, rfl, .inl ⟨rfl, rfl⟩, rfl, by decide, .inl ⟨rfl, rfl⟩, .inl ⟨rfl, rfl⟩, .inl ⟨rfl, rfl⟩, rfl⟩

/-- Loading changes no directory, except that of a saver given as path, see `path_violation`. -/
theorem unchanged (name : String) (g : Given) (directory : Option String) (file : Option Name) (w : World S) (m : Moment S) (a : Agent S)
    (h : load name g directory file w m = .ok a) (k : String) (hk : ∀ p, g = .path p → k ≠ p) : a.world k = w k := by
  have hi : ∀ b, initModel name (loadSaver g).1 w m = .ok b → b.world k = w k := by
    intro b hb
    cases g with
    | none =>
      cases hb
      rfl
    | path p =>
      have : initModel name (.path p) w m = .ok b := hb
      cases this
      exact if_neg (hk p rfl)
    | dict e =>
      unfold loadSaver initModel at hb
      dsimp only at hb
      cases hc : configure name (.dict (put "load" (.bool true) e)) with
      | error x => rw [hc] at hb; cases hb
      | ok c =>
        rw [hc] at hb
        cases c with
        | none => cases hb; rfl
        | some s =>
          dsimp only at hb
          rw [if_pos (configure_put hc)] at hb
          split at hb
          · cases hb
          · cases hb; rfl
  unfold load at h
  cases hm : initModel name (loadSaver g).1 w m with
  | error e => rw [hm] at h; cases h
  | ok b =>
    rw [hm] at h
    dsimp only at h
    split at h
    · cases h
      exact hi _ hm
    · split at h
      · cases h
      · split at h
        · cases h
        · cases h
          exact hi b hm

example : ((load "agent" .none (some "d") none (fun _ => ⟨[(⟨"agent", 50⟩, 't')], [(⟨"agent", 50⟩, 1000)], 0⟩) ⟨0, 0, 0, 'n', 2000⟩).toOption.map (fun a => a.state)) =
    some 't' := by decide +kernel

/-- If there is no checkpoint an exception is raised. -/
theorem absent {name : String} {e : Entries} {s : Settings} (hs : Documented name e s) (directory : Option String) (file : Option Name)
    (d : String) (w : World S) (m : Moment S) :
    ((w s.directory).listed = [] → load name (.dict e) directory file w m = .error .missing) ∧
    ((w d).listed = [] → (w d).files = [] → load name .none (some d) file w m = .error .missing) ∧
    load name .none none file w m = .error .type_ := by
  refine ⟨?_, ?_, ?_⟩
  · intro hl
    have hc : configure name (.dict (put "load" (.bool true) e)) = .ok (some { s with load := true }) := configure_load hs
    have hr : restore s.directory (manager (w s.directory) m.now).dir = .error .missing := by
      refine restore_missing ?_
      unfold manager
      dsimp only
      rw [hl]
      rfl
    unfold load loadSaver initModel
    dsimp only
    rw [hc]
    dsimp only
    rw [if_pos rfl, hr]
  · intro hl hf
    have hr : restore d (w d) = .error .missing := restore_missing hl
    have hb : file.bind (fun n => (w d).files.lookup n) = none := by
      rw [hf]
      cases file <;> rfl
    unfold load loadSaver initModel configure accept agentRestore
    dsimp only
    rw [if_neg nofun]
    rw [hb]
    dsimp only
    rw [hr]
  · rfl

example : (load "agent" (.dict [("directory", .str "d"), ("frequency", .int 100)]) none none (fun _ => ⟨[], [], 0⟩) ⟨0, 0, 0, 'n', 0⟩).toOption.isNone := by
  decide +kernel

/-- The directory of an agent with one checkpoint, whose state is `t`. -/
def trained : World Char := fun _ => ⟨[(⟨"agent", 50⟩, 't')], [(⟨"agent", 50⟩, 1000)], 0⟩

/-- Violation: if the saver is a path, loading the agent first saves the new agent, and then loads this checkpoint. -/
theorem path_violation : ((load "agent" (.path "d") (some "d") none trained ⟨0, 0, 0, 'n', 2000⟩).toOption.map (fun a => (a.state, (a.world "d").files))) =
    some ('n', [(⟨"agent", 50⟩, 't'), (⟨"agent", 0⟩, 'n')]) := by decide +kernel

/-- Two directories. -/
def two : World Char := fun d => if d = "best" then ⟨[(⟨"agent", 20⟩, 'b')], [(⟨"agent", 20⟩, 500)], 0⟩ else ⟨[(⟨"agent", 50⟩, 't')], [(⟨"agent", 50⟩, 1000)], 0⟩

/-- Violation: if the agent has a saver dictionary, the directory given is ignored, for instance that of the best agent. -/
theorem directory_violation :
    ((load "agent" (.dict [("directory", .str "d"), ("frequency", .int 10)]) (some "best") none two ⟨0, 0, 0, 'n', 2000⟩).toOption.map (fun a => a.state)) =
      some 't' ∧ newest (two "best") = .ok 'b' := by decide +kernel

/-- Violation: if the agent has a saver dictionary, the file name given is ignored. -/
theorem named_violation :
    ((load "agent" (.dict [("directory", .str "d"), ("frequency", .int 10)]) (some "d") (some ⟨"agent", 40⟩)
      (fun _ => ⟨[(⟨"agent", 40⟩, 's'), (⟨"agent", 50⟩, 't')], [(⟨"agent", 40⟩, 800), (⟨"agent", 50⟩, 1000)], 0⟩) ⟨0, 0, 0, 'n', 2000⟩).toOption.map
        (fun a => a.state)) = some 't' := by decide +kernel

/-- Violation: a directory which ends with a slash cannot be loaded. -/
theorem slash_violation : (match load "agent" .none (some "d/") none trained ⟨0, 0, 0, 'n', 2000⟩ with
    | .error e => some e
    | .ok _ => none) = some .assertion := by decide +kernel

/-- Violation: a saver which is configured not to load loads nevertheless. -/
theorem load_violation :
    ((load "agent" (.dict [("directory", .str "d"), ("frequency", .int 10), ("load", .bool false)]) (some "d") none trained ⟨0, 0, 0, 'n', 2000⟩).toOption.map
      (fun a => a.state)) = some 't' := by decide +kernel

end Verif.Props.Load
