import Verif.Saver.Lemmas

/-!
# C131: periodic checkpoints

The saver writes a checkpoint whenever it is due, and keeps the newest ones.
-/

namespace Verif.Props.Saver

open Verif.Saver

variable {S : Type}

/-- Every documented dictionary is accepted, and means what it says, with the documented default values. -/
theorem documented {name : String} {e : Entries} {s : Settings} (h : Documented name e s) : configure name (.dict e) = .ok (some s) := by
  have hp := prepare_documented h (e' := e) false (fun _ _ => rfl) (by rw [lookup_none_of_keys h.keys]; rfl)
  have hs : { s with load := false } = s := by
    rw [← h.load]
  rw [hs] at hp
  exact configure_dict (fun p hp => attributes_known (h.keys p hp)) (by rw [h.directory]; rfl) hp

example : Documented "agent" [("directory", .str "d"), ("frequency", .int 100), ("unit", .str "timesteps")]
    ⟨"d", "agent", false, 10, .timesteps, 100, none⟩ :=
  ⟨by decide, rfl, .inl ⟨rfl, rfl⟩, rfl, by decide, .inr ⟨_, rfl, .timesteps⟩, .inl ⟨rfl, rfl⟩, .inl ⟨rfl, rfl⟩, rfl⟩

/-- A path is the directory, with default values; no saver is none. -/
theorem path (name d : String) : configure name (.path d) = .ok (some ⟨d, name, false, 10, .updates, 10, none⟩) ∧ configure name .none = .ok none :=
  ⟨rfl, rfl⟩

example : configure "agent" (.path "d") = .ok (some ⟨"d", "agent", false, 10, .updates, 10, none⟩) := by decide +kernel

/-- Unknown attributes, and dictionaries without directory, are rejected. -/
theorem rejected (name : String) (e : Entries) :
    ((∃ p ∈ e, p.1 ∉ "load" :: attributes) → configure name (.dict e) = .error .value) ∧
    ((∀ p ∈ e, p.1 ∈ "load" :: attributes) → e.lookup "directory" = none → configure name (.dict e) = .error .required) := by
  have hall : (e.map (·.1)).all (fun k => known.contains k) = true ↔ ∀ p ∈ e, p.1 ∈ "load" :: attributes := by
    rw [List.all_eq_true]
    constructor
    · intro h p hp
      have := h p.1 (List.mem_map.2 ⟨p, hp, rfl⟩)
      rw [List.contains_iff_mem] at this
      revert this
      generalize p.1 = k
      revert k
      decide
    · intro h k hk
      obtain ⟨p, hp, hpk⟩ := List.mem_map.1 hk
      have := h p hp
      rw [hpk] at this
      rw [List.contains_iff_mem]
      revert this
      clear hpk hk
      revert k
      decide
  unfold configure accept
  dsimp only
  constructor
  · rintro ⟨p, hp, hn⟩
    rw [if_pos]
    intro h
    exact hn (hall.1 h p hp)
  · intro h hd
    rw [if_neg, if_pos]
    · rw [hd]
      rfl
    · rw [Decidable.not_not]
      exact hall.2 h

example : configure "agent" (.dict [("directory", .str "d"), ("every", .int 1)]) = .error .value ∧
    configure "agent" (.dict [("frequency", .int 1)]) = .error .required := by decide +kernel

/-- A directory which is no path, an unknown unit, and numbers of checkpoints below one, are rejected. Missing for the property:
frequencies, see `frequency_violation`. -/
theorem rejected_partial (name : String) (e : Entries)
    (h : (∃ z, e.lookup "directory" = some (.int z)) ∨ (∃ u, e.lookup "unit" = some (.str u) ∧ ∀ m, ¬ Unit_ u m) ∨
      ∃ z, e.lookup "max_checkpoints" = some (.int z) ∧ z ≤ 0) : ∃ err, configure name (.dict e) = .error err :=
  configure_rejects name e (prepare_rejects name e h)

example : ∃ err, configure "agent" (.dict [("directory", .str "d"), ("unit", .str "hours")]) = .error err := ⟨.key, by decide +kernel⟩

/-- The first call writes a checkpoint. -/
theorem first (s : Settings) (d : Dir S) (now : Int) (m : Moment S) (l : List (Moment S)) :
    (run s (manager d now) (m :: l)).2[0]? = some (some ⟨s.filename, m.count s.measure⟩) := rfl

example : (run ⟨"d", "agent", false, 10, .updates, 10, none⟩ (manager ⟨[], [], 0⟩ 0) [⟨5, 1, 3, 'a', 0⟩]).2 = [some ⟨"agent", 3⟩] := by
  decide +kernel

/-- Each checkpoint has the name, and the value of the counter, of its call. -/
theorem numbered (s : Settings) (g : Manager S) (ms : List (Moment S)) (j : Nat) (m : Moment S) (n : Name) (hm : ms[j]? = some m)
    (h : (run s g ms).2[j]? = some (some n)) :
    n.base = s.filename ∧ (s.measure = .timesteps → n.number = m.timesteps) ∧ (s.measure = .episodes → n.number = m.episodes) ∧
      (s.measure = .updates → n.number = m.updates) := by
  rw [run_number s g ms j m n hm h]
  refine ⟨rfl, ?_, ?_, ?_⟩ <;> intro h <;> dsimp only <;> rw [h] <;> rfl

example : (run ⟨"d", "agent", false, 10, .episodes, 2, none⟩ (manager ⟨[], [], 0⟩ 0) [⟨5, 1, 0, 'a', 0⟩, ⟨9, 2, 0, 'b', 1⟩, ⟨20, 4, 0, 'c', 2⟩]).2 =
    [some ⟨"agent", 1⟩, none, some ⟨"agent", 4⟩] := by decide +kernel

/-- Between any two checkpoints of a session there are at least `frequency` units. -/
theorem spaced (s : Settings) (hi : 0 ≤ s.interval) (g : Manager S) (ms : List (Moment S)) (i j : Nat) (a b : Name) (hij : i < j)
    (ha : (run s g ms).2[i]? = some (some a)) (hb : (run s g ms).2[j]? = some (some b)) : (a.number : Int) + s.interval ≤ b.number :=
  (run_spaced s hi g ms).2 i j a b hij ha hb

example : (run ⟨"d", "agent", false, 10, .updates, 2, none⟩ (manager ⟨[], [], 0⟩ 0) [⟨1, 1, 1, 'a', 0⟩, ⟨2, 1, 2, 'b', 1⟩, ⟨3, 1, 3, 'c', 2⟩]).2 =
    [some ⟨"agent", 1⟩, none, some ⟨"agent", 3⟩] := by decide +kernel

/-- A call which writes no checkpoint comes less than `frequency` units after one of the session which did. -/
theorem prompt (s : Settings) (d : Dir S) (now : Int) (ms : List (Moment S)) (j : Nat) (m : Moment S) (hm : ms[j]? = some m)
    (h : (run s (manager d now) ms).2[j]? = some none) :
    ∃ (i : Nat) (a : Name), i < j ∧ (run s (manager d now) ms).2[i]? = some (some a) ∧ (m.count s.measure : Int) < a.number + s.interval := by
  rcases run_prompt s (manager d now) ms j m hm h with ⟨l, h1, _⟩ | h
  · cases h1
  · exact h

example : (run ⟨"d", "agent", false, 10, .updates, 10, none⟩ (manager ⟨[], [], 0⟩ 0) [⟨5, 1, 3, 'a', 0⟩, ⟨6, 1, 12, 'b', 1⟩]).2 = [some ⟨"agent", 3⟩, none] := by
  decide +kernel

/-- Without `max_hour_frequency` the directory holds exactly the newest `max_checkpoints` checkpoints, including those of earlier sessions,
each with the state when it was written. -/
theorem newest_kept (s : Settings) (k : Nat) (hk : s.keep = k) (hs : s.hours = none) (d : Dir S) (hd : Consistent d) (now : Int)
    (ms : List (Moment S)) (hw : written (run s (manager d now) ms).2 ms ≠ []) :
    (run s (manager d now) ms).1.dir.files = newestOf k ((written (run s (manager d now) ms).2 ms).foldl overwrite d.files) ∧
    Consistent (run s (manager d now) ms).1.dir := by
  have hd' : Consistent (manager d now).dir := by
    refine ⟨?_, hd.nodup⟩
    show d.files.map (·.1) = (d.listed.map (fun e => (e.1, min e.2 now))).map (·.1)
    rw [List.map_map, hd.names]
    rfl
  obtain ⟨h1, h2⟩ := run_files s k hk hs (manager d now) hd' ms
  rw [if_neg (by rw [List.isEmpty_iff]; exact hw)] at h2
  exact ⟨h2, h1⟩

example : (run ⟨"d", "agent", false, 2, .updates, 1, none⟩ (manager ⟨[], [], 0⟩ 0) [⟨1, 1, 1, 'a', 0⟩, ⟨2, 1, 2, 'b', 1⟩, ⟨3, 1, 3, 'c', 2⟩]).1.dir.files =
    [(⟨"agent", 2⟩, 'b'), (⟨"agent", 3⟩, 'c')] := by decide +kernel

/-- The checkpoint written last is the one found when loading, with the state when it was written; if none was written, nothing changes. -/
theorem last_found (s : Settings) (hk : 0 < s.keep) (g : Manager S) (ms : List (Moment S)) :
    (∀ n x, (written (run s g ms).2 ms).getLast? = some (n, x) → newest (run s g ms).1.dir = .ok x) ∧
    (written (run s g ms).2 ms = [] → (run s g ms).1.dir = g.dir) :=
  run_newest s hk g ms

example : newest (run ⟨"d", "agent", false, 2, .updates, 5, some 1⟩ (manager ⟨[], [], 0⟩ 0) [⟨1, 1, 1, 'a', 0⟩, ⟨2, 1, 6, 'b', 1⟩, ⟨3, 1, 7, 'c', 2⟩]).1.dir =
    .ok 'b' := by decide +kernel

/-- With `max_hour_frequency`, a checkpoint is deleted only if it is less than that many hours newer than one preserved. -/
theorem hours_deleted (s : Settings) (h : Int) (hh : 0 < h) (hs : s.hours = some h) (d : Dir S) (n n' : Name) (x x' : S) (now : Int) (hn : n ≠ n')
    (hf : (n, x) ∈ d.files) (hd : ∀ y, (n, y) ∉ (write s d n' x' now).files) :
    ∃ t, (n, t) ∈ d.listed ∧ t < (write s d n' x' now).preserved + h * 3600 := by
  have hc : n ∈ (sweep s.keep s.hours (d.listed.filter (fun e => e.1 ≠ n') ++ [(n', now)]) d.preserved).2.1 := by
    apply Decidable.byContradiction
    intro hc
    refine hd x ?_
    unfold write
    dsimp only
    rw [List.mem_filter, List.mem_append, List.mem_filter]
    refine ⟨.inl ⟨hf, by rw [decide_eq_true_iff]; exact hn⟩, ?_⟩
    rw [decide_eq_true_iff, List.contains_iff_mem]
    exact hc
  rw [hs] at hc
  obtain ⟨t, h1, h2⟩ := sweep_hours _ h hh _ _ n hc
  rw [List.mem_append, List.mem_filter, List.mem_singleton] at h1
  refine ⟨t, ?_, ?_⟩
  · rcases h1 with h1 | h1
    · exact h1.1
    · exact absurd (Prod.mk.inj h1).1 hn
  · unfold write
    rw [hs]
    exact h2

example : (write ⟨"d", "agent", false, 1, .updates, 1, some 1⟩ ⟨[(⟨"agent", 1⟩, 'a')], [(⟨"agent", 1⟩, 60)], 0⟩ ⟨"agent", 2⟩ 'b' 120).files =
    [(⟨"agent", 2⟩, 'b')] := by decide +kernel

/-- The checkpoint preserved last is not listed any more, at least that many hours newer than the one before, and its file is kept. -/
theorem hours_preserved (s : Settings) (h : Int) (hh : 0 < h) (hs : s.hours = some h) (d : Dir S) (hd : Consistent d) (n : Name) (x : S) (now : Int) :
    (write s d n x now).preserved = d.preserved ∨
    ∃ m y, ((m, (write s d n x now).preserved) ∈ d.listed ∨ (m, (write s d n x now).preserved) = (n, now)) ∧
      m ∉ (write s d n x now).listed.map (·.1) ∧ (m, y) ∈ (write s d n x now).files ∧ d.preserved + h * 3600 ≤ (write s d n x now).preserved := by
  have hl := listed_names hd n x now
  have hnd : ((d.listed.filter (fun e => e.1 ≠ n) ++ [(n, now)]).map (·.1)).Nodup := by
    rw [hl]
    exact overwrite_nodup _ _ hd.nodup
  have hp : (write s d n x now).preserved = (sweep s.keep (some h) (d.listed.filter (fun e => e.1 ≠ n) ++ [(n, now)]) d.preserved).2.2 := by
    unfold write
    rw [hs]
  rw [hp]
  rcases sweep_preserved s.keep h hh _ hnd d.preserved with h1 | ⟨m, h1, h2, h4, h3⟩
  · exact .inl h1
  · have hm : m ∈ (overwrite d.files (n, x)).map (·.1) := by
      rw [← hl]
      exact List.mem_map.2 ⟨_, h1, rfl⟩
    obtain ⟨e, he, hem⟩ := List.mem_map.1 hm
    refine .inr ⟨m, e.2, ?_, ?_, ?_, h3⟩
    · rw [List.mem_append, List.mem_filter, List.mem_singleton] at h1
      rcases h1 with h1 | h1
      · exact .inl h1.1
      · exact .inr h1
    · unfold write
      rw [hs]
      exact h4
    · unfold write
      dsimp only
      rw [hs, List.mem_filter]
      refine ⟨?_, ?_⟩
      · rw [← hem]
        exact he
      · rw [decide_eq_true_iff, List.contains_iff_mem]
        exact h2

example : (write ⟨"d", "agent", false, 1, .updates, 1, some 1⟩ ⟨[(⟨"agent", 1⟩, 'a')], [(⟨"agent", 1⟩, 4000)], 0⟩ ⟨"agent", 2⟩ 'b' 4100).files =
    [(⟨"agent", 1⟩, 'a'), (⟨"agent", 2⟩, 'b')] := by decide +kernel

/-- Checkpoints are preserved only if they are that many hours newer than the one preserved before, and then their time is recorded, so that the
checkpoints preserved are that many hours apart. -/
theorem hours_recorded (s : Settings) (h : Int) (hh : 0 < h) (hs : s.hours = some h) (d : Dir S) (n n' : Name) (t : Int) (x x' : S) (now : Int) (hn : n ≠ n')
    (hl : (n, t) ∈ d.listed) (hf : (n, x) ∈ (write s d n' x' now).files) (hd : n ∉ (write s d n' x' now).listed.map (·.1)) :
    d.preserved + h * 3600 ≤ t ∧ t ≤ (write s d n' x' now).preserved := by
  unfold write at *
  dsimp only at *
  rw [hs] at *
  refine sweep_recorded s.keep h hh _ _ n t ?_ ?_ hd
  · rw [List.mem_append, List.mem_filter]
    exact .inl ⟨hl, by rw [decide_eq_true_iff]; exact hn⟩
  · rw [List.mem_filter, decide_eq_true_iff, List.contains_iff_mem] at hf
    exact hf.2

example : (write ⟨"d", "agent", false, 1, .updates, 1, some 1⟩ ⟨[(⟨"agent", 1⟩, 'a')], [(⟨"agent", 1⟩, 4000)], 0⟩ ⟨"agent", 2⟩ 'b' 4100).preserved = 4000 := by
  decide +kernel

/-- A new session takes over files and record, and times which are not in the future. -/
theorem taken_over (d : Dir S) (now : Int) : (manager d now).last = none ∧ (manager d now).dir.files = d.files ∧
    ((∀ e ∈ d.listed, e.2 ≤ now) → (manager d now).dir.listed = d.listed) ∧ (d.listed ≠ [] → d.preserved ≤ now → (manager d now).dir.preserved = d.preserved) ∧
    (d.listed = [] → (manager d now).dir.preserved < now) ∧ (∀ e ∈ (manager d now).dir.listed, e.2 ≤ now) ∧ (manager d now).dir.preserved ≤ now := by
  unfold manager
  dsimp only
  refine ⟨rfl, rfl, fun h => ?_, fun h1 h2 => ?_, fun h => ?_, fun e he => ?_, ?_⟩
  · conv => rhs; rw [← List.map_id d.listed]
    refine List.map_congr_left (fun e he => ?_)
    have := h e he
    rw [show min e.2 now = e.2 by omega]
    rfl
  · rw [if_neg h1]
    omega
  · rw [if_pos h]
    omega
  · obtain ⟨a, _, rfl⟩ := List.mem_map.1 he
    dsimp only
    omega
  · split <;> omega

example : (manager (S := Char) ⟨[(⟨"agent", 1⟩, 'a')], [(⟨"agent", 1⟩, 4000)], 0⟩ 5000).dir.listed = [(⟨"agent", 1⟩, 4000)] := by decide +kernel

/-- A preserved checkpoint, which is not listed any more, is never deleted by the saver, and the newest ones are always listed. -/
theorem permanent (s : Settings) (k : Nat) (hk : s.keep = k) (d : Dir S) (n n' : Name) (x x' : S) (now : Int) (hn : n ≠ n') (hf : (n, x) ∈ d.files)
    (hl : n ∉ d.listed.map (·.1)) : (n, x) ∈ (write s d n' x' now).files ∧ n ∉ (write s d n' x' now).listed.map (·.1) ∧
      (write s d n' x' now).listed = newestOf k (d.listed.filter (fun e => e.1 ≠ n') ++ [(n', now)]) := by
  have h3 : (write s d n' x' now).listed = newestOf k (d.listed.filter (fun e => e.1 ≠ n') ++ [(n', now)]) := by
    unfold write
    dsimp only
    rw [hk, sweep_listed]
  have hnl : n ∉ (d.listed.filter (fun e => e.1 ≠ n') ++ [(n', now)]).map (·.1) := by
    rw [List.map_append, List.mem_append]
    rintro (h | h)
    · obtain ⟨e, he, hen⟩ := List.mem_map.1 h
      exact hl (List.mem_map.2 ⟨e, (List.mem_filter.1 he).1, hen⟩)
    · exact hn (List.mem_singleton.1 h)
  refine ⟨?_, ?_, h3⟩
  · unfold write
    dsimp only
    rw [List.mem_filter, List.mem_append, List.mem_filter]
    refine ⟨.inl ⟨hf, by rw [decide_eq_true_iff]; exact hn⟩, ?_⟩
    rw [decide_eq_true_iff, List.contains_iff_mem, hk]
    intro h
    have := sweep_deleted k s.hours _ _ n h
    rw [List.map_take] at this
    exact hnl (List.mem_of_mem_take this)
  · rw [h3, newestOf_map]
    exact fun h => hnl (List.mem_of_mem_drop h)

example : (write ⟨"d", "agent", false, 1, .updates, 1, none⟩ ⟨[(⟨"agent", 1⟩, 'a'), (⟨"agent", 2⟩, 'b')], [(⟨"agent", 2⟩, 0)], 0⟩ ⟨"agent", 3⟩ 'c' 1).files =
    [(⟨"agent", 1⟩, 'a'), (⟨"agent", 3⟩, 'c')] := by decide +kernel

/-- Violation: a dictionary without the required frequency, or with 0 as frequency, is accepted. -/
theorem frequency_violation : configure "agent" (.dict [("directory", .str "d")]) = .ok (some ⟨"d", "agent", false, 10, .updates, 10, none⟩) ∧
    configure "agent" (.dict [("directory", .str "d"), ("frequency", .int 0)]) = .ok (some ⟨"d", "agent", false, 10, .updates, 0, none⟩) := by decide +kernel

/-- Violation: a negative number of hours is accepted, and then no checkpoint is ever deleted. -/
theorem hours_violation :
    configure "agent" (.dict [("directory", .str "d"), ("frequency", .int 1), ("max_checkpoints", .int 1), ("max_hour_frequency", .int (-1))]) =
      .ok (some ⟨"d", "agent", false, 1, .updates, 1, some (-1)⟩) ∧
    (run ⟨"d", "agent", false, 1, .updates, 1, some (-1)⟩ (manager ⟨[], [], 0⟩ 0) [⟨1, 1, 1, 'a', 0⟩, ⟨2, 1, 2, 'b', 1⟩, ⟨3, 1, 3, 'c', 2⟩]).1.dir.files =
      [(⟨"agent", 1⟩, 'a'), (⟨"agent", 2⟩, 'b'), (⟨"agent", 3⟩, 'c')] := by decide +kernel

/-- Violation: closing the agent (the last call here) does not write its final state if the frequency is not reached. -/
theorem close_violation : (run ⟨"d", "agent", false, 10, .updates, 10, none⟩ (manager ⟨[], [], 0⟩ 0) [⟨0, 0, 0, 'a', 0⟩, ⟨100, 5, 9, 'z', 60⟩]).1.dir.files =
    [(⟨"agent", 0⟩, 'a')] := by decide +kernel

end Verif.Props.Saver
