import Verif.Store.SpecLemmas

/-! # C40: restoring picks the most recent save; C48: loading finds the agent specification -/

namespace Verif.Props.Store

open Verif.Store

def agent : Name := "agent".toList
def files (l : List String) : List Name := l.map String.toList

/-! ## C40 -/

/-- Numbered numpy saves: if the directory has no unnumbered file of the base name, and every file that begins like the base name and ends
like an archive is one of its numbered saves, the one with the largest number is restored, whatever the order and the other files. Missing:
other files with the same beginning (`unrelated_violation`), unnumbered files (`unnumbered_violation`, `both_violation`). -/
theorem numpy_latest_partial {dir : List Name} {f : Name} {format : Option Format} (hf : format = none ∨ format = some .numpy)
    (hx : format = none → NoExact dir f) (hn : ∀ name ∈ dir, LikeNumpy f name → ∃ k, name = save f k npz)
    (hh : format = none → ∀ name ∈ dir, ¬ LikeHdf5 f name) (hs : ∃ k, save f k npz ∈ dir) (ckpt : Option Name) :
    ∃ name, restored dir ckpt f format = .ok name ∧ IsLatest dir f npz name := by
  obtain ⟨k0, hk0⟩ := hs
  obtain ⟨st, h1, h2⟩ := scan_saves (fmt := .numpy) (ext := npz) (scanOne_save_numpy hf f) dir (fun name hname => by
    by_cases hl : LikeNumpy f name
    · exact .inl (hn name hname hl)
    · right
      intro st
      rcases scanOne_cases format f name st with e | e | e | e | e
      · exact absurd (e.2.1 ▸ exact_numpy f) hl
      · exact absurd e.2.1 hl
      · rcases hf with rfl | rfl
        · rcases e.2.1 with rfl | rfl
          · exact absurd (exact_hdf5 f) (hh rfl _ hname)
          · exact absurd (exact_h5 f) (hh rfl _ hname)
        · rcases e.1 with e | e <;> cases e
      · rcases hf with rfl | rfl
        · exact absurd e.2.1 (hh rfl _ hname)
        · rcases e.1 with e | e <;> cases e
      · exact e.2.2) ⟨none, some (-1)⟩ (-1) rfl (.inl rfl)
  rcases h2 with ⟨-, h2⟩ | ⟨m, rfl, hm, -, hall⟩
  · exact absurd hk0 (h2 k0)
  have h0 := hall k0 hk0
  rcases hm with hm | ⟨k, rfl, hk⟩
  · omega
  refine ⟨save f k npz, ?_, k, rfl, hk, fun j hj => by have := hall j hj; omega⟩
  have hne : some (k : Int) ≠ some (-1) := by intro h; have := Option.some.inj h; omega
  have hc : infer dir ckpt f format = .ok (f ++ '-' :: Nat.toDigits 10 k, .numpy) := by
    rw [infer, h1]; dsimp only
    rw [if_neg hne, chooseFound]; dsimp only
    rw [if_pos hf, pyStr_nat]
  rw [restored, choose_infer hx, hc]
  exact if_pos hk

example : (restored (files ["agent-2.npz", "notes.txt", "agent-10.npz", "agent.json", "agent-9.npz", "other-40.npz"]) none agent none).toOption =
    some "agent-10.npz".toList := by decide +kernel
example : (restored (files ["agent-2.npz", "agent-3.hdf5"]) none agent (some .numpy)).toOption = some "agent-2.npz".toList := by decide +kernel

example : ∃ name, restored [save agent 2 npz, "notes.txt".toList, save agent 10 npz] none agent none = .ok name ∧
    IsLatest [save agent 2 npz, "notes.txt".toList, save agent 10 npz] agent npz name := by
  refine numpy_latest_partial (.inl rfl) (fun _ => by decide +kernel) ?_ (fun _ => by decide +kernel) ⟨2, by simp⟩ none
  simp only [List.mem_cons, List.not_mem_nil, or_false]
  rintro name (rfl | rfl | rfl) h
  · exact ⟨2, rfl⟩
  · exact absurd h (by decide +kernel)
  · exact ⟨10, rfl⟩

/-- The same for HDF5 saves as `Model.save` writes them. -/
theorem hdf5_latest_partial {dir : List Name} {f : Name} {format : Option Format} (hf : format = none ∨ format = some .hdf5)
    (hx : format = none → NoExact dir f) (hn : ∀ name ∈ dir, LikeHdf5 f name → ∃ k, name = save f k hdf5)
    (hh : format = none → ∀ name ∈ dir, ¬ LikeNumpy f name) (hs : ∃ k, save f k hdf5 ∈ dir) (ckpt : Option Name) :
    ∃ name, restored dir ckpt f format = .ok name ∧ IsLatest dir f hdf5 name := by
  obtain ⟨k0, hk0⟩ := hs
  obtain ⟨st, h1, h2⟩ := scan_saves (fmt := .hdf5) (ext := hdf5) (scanOne_save_hdf5 hf f) dir (fun name hname => by
    by_cases hl : LikeHdf5 f name
    · exact .inl (hn name hname hl)
    · right
      intro st
      rcases scanOne_cases format f name st with e | e | e | e | e
      · rcases hf with rfl | rfl
        · exact absurd (e.2.1 ▸ exact_numpy f) (hh rfl _ hname)
        · rcases e.1 with e | e <;> cases e
      · rcases hf with rfl | rfl
        · exact absurd e.2.1 (hh rfl _ hname)
        · rcases e.1 with e | e <;> cases e
      · rcases e.2.1 with rfl | rfl
        · exact absurd (exact_hdf5 f) hl
        · exact absurd (exact_h5 f) hl
      · exact absurd e.2.1 hl
      · exact e.2.2) ⟨none, some (-1)⟩ (-1) rfl (.inl rfl)
  rcases h2 with ⟨-, h2⟩ | ⟨m, rfl, hm, -, hall⟩
  · exact absurd hk0 (h2 k0)
  have h0 := hall k0 hk0
  rcases hm with hm | ⟨k, rfl, hk⟩
  · omega
  refine ⟨save f k hdf5, ?_, k, rfl, hk, fun j hj => by have := hall j hj; omega⟩
  have hne : some (k : Int) ≠ some (-1) := by intro h; have := Option.some.inj h; omega
  have hc : infer dir ckpt f format = .ok (f ++ '-' :: Nat.toDigits 10 k, .hdf5) := by
    rw [infer, h1]; dsimp only
    rw [if_neg hne, chooseFound]; dsimp only
    rw [if_pos hf, pyStr_nat]
  rw [restored, choose_infer hx, hc]
  exact (if_pos hk).trans (if_pos hk)

example : (restored (files ["agent-100.hdf5", "agent-20.hdf5", "agen-7.hdf5"]) none agent none).toOption = some "agent-100.hdf5".toList := by
  decide +kernel

/-- Whatever the directory contains, a numbered save that is restored is the latest one of its format. -/
theorem never_older_numpy {dir : List Name} {ckpt : Option Name} {f : Name} {format : Option Format} {k : Nat}
    (h : restored dir ckpt f format = .ok (save f k npz)) : IsLatest dir f npz (save f k npz) := by
  obtain ⟨r, hr, ho⟩ := restored_ok h
  obtain ⟨hfmt, hname, hmem⟩ := opened_numpy ho
  have hg : r.1 = f ++ '-' :: Nat.toDigits 10 k := (List.append_cancel_right_eq _ _ _).mp hname.symm
  obtain ⟨st, hs, hw, hl⟩ := choose_numbered hr hg (by rw [hfmt]; decide)
  have hf : WantsNumpy format := by rw [hfmt] at hw; exact hw
  have := (scan_sound (scanOne_save_numpy hf f) dir _ _ hs _ hl).2
  exact ⟨k, rfl, hmem, fun j hj => by have := this j hj; omega⟩

example : (restored (files ["agent-2.npz", "agent-12.npz", "agent-1.npz"]) none agent none).toOption = some (save agent 12 npz) := by decide +kernel

theorem never_older_hdf5 {dir : List Name} {ckpt : Option Name} {f : Name} {format : Option Format} {k : Nat}
    (h : restored dir ckpt f format = .ok (save f k hdf5)) : IsLatest dir f hdf5 (save f k hdf5) := by
  obtain ⟨r, hr, ho⟩ := restored_ok h
  obtain ⟨hfmt, hname, hmem⟩ := opened_hdf5 ho
  have hg : r.1 = f ++ '-' :: Nat.toDigits 10 k := (List.append_cancel_right_eq _ _ _).mp hname.symm
  obtain ⟨st, hs, hw, hl⟩ := choose_numbered hr hg (by rw [hfmt]; decide)
  have hf : WantsHdf5 format := by rw [hfmt] at hw; exact hw
  have := (scan_sound (scanOne_save_hdf5 hf f) dir _ _ hs _ hl).2
  exact ⟨k, rfl, hmem, fun j hj => by have := this j hj; omega⟩

example : (restored (files ["agent-2.hdf5", "agent-123.h5"]) none agent none).toOption = some (save agent 2 hdf5) := by decide +kernel

/-- Checkpoints: without archives of the base name, the checkpoint TensorFlow recorded last is restored, which is right if it is the latest of
this base name. Missing: TensorFlow does not look at the base name (`other_base_violation`). -/
theorem checkpoint_latest_partial {dir : List Name} {f g : Name} {format : Option Format} (hf : format = none ∨ format = some .checkpoint)
    (hx : f ∉ dir ∧ f ++ index ∉ dir) (hn : ∀ name ∈ dir, ¬ LikeNumpy f name ∧ ¬ LikeHdf5 f name) (hg : IsLatest dir f index (g ++ index)) :
    ∃ name, restored dir (some g) f format = .ok name ∧ IsLatest dir f index name := by
  refine ⟨g ++ index, ?_, hg⟩
  obtain ⟨-, -, hmem, -⟩ := hg
  have h1 : scan format f dir ⟨none, some (-1)⟩ = .ok ⟨none, some (-1)⟩ := scan_skip dir (fun name hname => .inr (hn name hname)) _
  have hc : choose dir (some g) f format = .ok (g, .checkpoint) := by
    rw [choose_infer fun _ => ⟨hx.1, hx.2, fun h => (hn _ h).1 (exact_numpy f), fun h => (hn _ h).2 (exact_hdf5 f), fun h => (hn _ h).2 (exact_h5 f)⟩,
      infer, h1]
    dsimp only
    rw [if_pos rfl, chooseCheckpoint, if_pos hf, if_neg hx.2]
  rw [restored, hc]
  exact if_pos hmem

example : (restored (files ["agent-1.index", "agent-2.index", "agent-2.data-00000-of-00001", "checkpoint"]) (some "agent-2".toList) agent none).toOption =
    some "agent-2.index".toList := by decide +kernel

/-- A complete file name is restored as it is. -/
theorem explicit_file {dir : List Name} {g : Name} {ext : Name} (he : ext = npz ∨ ext = hdf5) (hm : g ++ ext ∈ dir) (hd : before data (g ++ ext) = none)
    (ckpt : Option Name) : restored dir ckpt (g ++ ext) none = .ok (g ++ ext) := by
  have hc : choose dir ckpt (g ++ ext) none = complete (g ++ ext) := if_pos ⟨rfl, hm⟩
  rcases he with rfl | rfl
  · have : complete (g ++ npz) = .ok (g, .numpy) := by
      rw [complete, hd]; dsimp only
      rw [if_pos (List.isSuffixOf_iff_suffix.mpr ⟨_, rfl⟩)]
      exact congrArg (fun x => Except.ok (x, Format.numpy)) (dropEnd_append g npz)
    rw [restored, hc, this]
    exact if_pos hm
  · have hn : ¬ npz <:+ g ++ hdf5 := fun h => by have := (npz_last h).symm.trans (hdf5_last ⟨g, rfl⟩); simp at this
    have : complete (g ++ hdf5) = .ok (g, .hdf5) := by
      rw [complete, hd]; dsimp only
      rw [if_neg fun h => hn (List.isSuffixOf_iff_suffix.mp h), if_pos (List.isSuffixOf_iff_suffix.mpr ⟨_, rfl⟩)]
      exact congrArg (fun x => Except.ok (x, Format.hdf5)) (dropEnd_append g hdf5)
    rw [restored, hc, this]
    exact (if_pos hm).trans (if_pos hm)

example : (restored (files ["agent-3.npz", "agent-7.npz"]) none "agent-3.npz".toList none).toOption = some "agent-3.npz".toList := by decide +kernel

/-- With the format given, an unnumbered archive that is the only one is restored. -/
theorem unnumbered_alone {dir : List Name} {f : Name} (hd : dir.Nodup) (hm : f ++ npz ∈ dir) (hn : ∀ name ∈ dir, LikeNumpy f name → name = f ++ npz)
    (ckpt : Option Name) : restored dir ckpt f (some .numpy) = .ok (f ++ npz) := by
  have hskip : ∀ name ∈ dir, name ≠ f ++ npz → ∀ st, scanOne (some .numpy) f name st = .ok st := by
    intro name hname hne st
    rcases scanOne_cases (some .numpy) f name st with e | e | e | e | e
    · exact absurd e.2.1 hne
    · exact absurd (hn _ hname e.2.1) hne
    · rcases e.1 with e | e <;> cases e
    · rcases e.1 with e | e <;> cases e
    · exact e.2.2
  have hscan : scan (some .numpy) f dir ⟨none, some (-1)⟩ = .ok ⟨some .numpy, none⟩ := by
    obtain ⟨l1, l2, rfl⟩ := List.append_of_mem hm
    rw [List.nodup_append] at hd
    have h2 := List.nodup_cons.mp hd.2.1
    rw [scan_pass (l1 := l1) fun name hname => hskip name (by simp [hname]) fun e => hd.2.2 name hname _ (by simp) e, scan,
      show scanOne (some .numpy) f (f ++ npz) ⟨none, some (-1)⟩ = .ok ⟨some .numpy, none⟩ by rw [scanOne, if_pos ⟨.inr rfl, rfl⟩]; rfl]
    dsimp only
    have := scan_pass (l1 := l2) (l2 := []) (st := ⟨some .numpy, none⟩) fun name hname => hskip name (by simp [hname]) fun e => h2.1 (e ▸ hname)
    rw [List.append_nil] at this
    exact this
  have hc : infer dir ckpt f (some .numpy) = .ok (f, .numpy) := by
    rw [infer, hscan]; dsimp only
    rw [if_neg (by simp), chooseFound]; dsimp only
    rw [if_pos (.inr rfl)]
  rw [restored, choose_infer (fun h => by cases h), hc]
  exact if_pos hm

example : restored (files ["notes.txt", "agent.npz", "agent-3.hdf5"]) none agent (some .numpy) = .ok "agent.npz".toList :=
  unnumbered_alone (f := agent) (by decide +kernel) (by decide +kernel) (by decide +kernel) none

/-- An unnumbered checkpoint is restored, whatever checkpoint TensorFlow recorded last. -/
theorem unnumbered_checkpoint {dir : List Name} {f : Name} {format : Option Format} (hf : format = none ∧ f ∉ dir ∨ format = some .checkpoint)
    (hm : f ++ index ∈ dir) (ckpt : Option Name) : restored dir ckpt f format = .ok (f ++ index) := by
  have hc : choose dir ckpt f format = .ok (f, .checkpoint) := by
    rcases hf with ⟨rfl, h⟩ | rfl
    · rw [choose, if_neg fun e => h e.2, if_pos ⟨rfl, hm⟩]
    · rw [choose_infer (fun h => by cases h), infer, scan_skip dir (fun _ _ => .inl rfl)]
      dsimp only
      rw [if_pos rfl, chooseCheckpoint.eq_def, if_pos (.inr rfl), if_pos hm]
  rw [restored, hc]
  exact if_pos hm

example : restored (files ["agent.index", "agent-3.index"]) (some "agent-3".toList) agent (some .checkpoint) = .ok "agent.index".toList :=
  unnumbered_checkpoint (.inr rfl) (by decide +kernel) _

/-! ### Violations -/

/-- A file that begins like the base name and does not end in a number makes restoring fail, whatever saves there are. -/
theorem unrelated_violation {dir : List Name} {f x : Name} {format : Option Format} (hf : format = none ∨ format = some .numpy)
    (hx : format = none → NoExact dir f) (h0 : x ≠ []) (hi : pyInt (x.drop 1) = none) (hm : f ++ x ++ npz ∈ dir) (ckpt : Option Name) :
    Fails (restored dir ckpt f format) := by
  refine restored_fails hx (scan_fails (b := f ++ x ++ npz) (fun _ => True) (fun _ _ _ _ _ => trivial) (fun st _ => ?_) dir hm _ trivial)
  have hl : LikeNumpy f (f ++ x ++ npz) := ⟨⟨x ++ npz, by simp⟩, ⟨f ++ x, rfl⟩⟩
  have hne : f ++ x ++ npz ≠ f ++ npz := by
    intro h
    have := congrArg List.length h
    simp at this
    exact h0 this
  have hsl : slice (f.length + 1) 4 (f ++ x ++ npz) = x.drop 1 := by
    rw [slice, show (f ++ x ++ npz).length - 4 = (f ++ x).length by simp [npz]; omega, List.take_left, List.drop_append]
    simp
  rw [scanOne_numpy hf hl hne, hsl]
  refine fails_of fun st' h => ?_
  obtain ⟨-, n, l, hn, -⟩ := numbered_ok h
  rw [hi] at hn; cases hn

example : Fails (restored (files ["agent-3.npz", "agent-best.npz"]) none agent none) :=
  unrelated_violation (x := "-best".toList) (.inl rfl) (fun _ => by decide +kernel) (by decide) (by decide +kernel) (by decide +kernel) none

/-- A file of another base name ending in digits is counted as a save, and a file that does not exist is chosen. -/
theorem foreign_number_violation : (restored (files ["agent-3.npz", "agent27.npz"]) none agent none).toOption = none ∧
    (choose (files ["agent-3.npz", "agent27.npz"]) none agent none).toOption = some ("agent-7".toList, .numpy) := by decide +kernel

/-- An unnumbered save is preferred to all numbered ones if no format is given. -/
theorem unnumbered_violation {dir : List Name} {f : Name} (h1 : f ∉ dir) (h2 : f ++ index ∉ dir) (h3 : f ++ npz ∈ dir) (ckpt : Option Name) :
    restored dir ckpt f none = .ok (f ++ npz) := by
  have : choose dir ckpt f none = .ok (f, .numpy) := by
    rw [choose, if_neg (by simp [h1]), if_neg (by simp [h2]), if_pos ⟨rfl, h3⟩]
  rw [restored, this]
  exact if_pos h3

example : restored (files ["agent.npz", "agent-3.npz"]) none agent none = .ok "agent.npz".toList :=
  unnumbered_violation (by decide +kernel) (by decide +kernel) (by decide +kernel) none

/-- With the format given, an unnumbered and a numbered save together make restoring fail. -/
theorem both_violation {dir : List Name} {f : Name} {k : Nat} (h1 : f ++ npz ∈ dir) (h2 : save f k npz ∈ dir) (ckpt : Option Name) :
    Fails (restored dir ckpt f (some .numpy)) := by
  refine restored_fails (fun h => by cases h) (scan_pair (a := f ++ npz) (b := save f k npz) (fun st => st.latest = none)
    (fun st => st.found = some .numpy) (latest_kept f) (found_kept f .numpy) ?_ ?_ ?_ ?_ (save_ne f k (by decide)).symm dir h1 h2 _)
  · intro st st' h
    rw [scanOne, if_pos ⟨.inr rfl, rfl⟩] at h
    rw [(exact_ok h).2]
  · intro st st' h
    rw [scanOne_save_numpy (.inr rfl)] at h
    obtain ⟨-, n, l, -, -, rfl⟩ := numbered_ok h
    rfl
  · intro st h
    refine fails_of fun st' h' => ?_
    rw [scanOne, if_pos ⟨.inr rfl, rfl⟩] at h'
    rw [(exact_ok h').1] at h; cases h
  · intro st h
    refine fails_of fun st' h' => ?_
    rw [scanOne_save_numpy (.inr rfl)] at h'
    obtain ⟨-, n, l, -, hl, -⟩ := numbered_ok h'
    rw [h] at hl; cases hl

example : Fails (restored (files ["agent.npz", "agent-3.npz"]) none agent (some .numpy)) :=
  both_violation (k := 3) (by decide +kernel) (by decide +kernel) none

/-- Saves in both archive formats make restoring fail unless the format is given. -/
theorem mixed_violation {dir : List Name} {f : Name} {j k : Nat} (hx : NoExact dir f) (h1 : save f j npz ∈ dir) (h2 : save f k hdf5 ∈ dir)
    (ckpt : Option Name) : Fails (restored dir ckpt f none) := by
  refine restored_fails (fun _ => hx) (scan_pair (a := save f j npz) (b := save f k hdf5) (fun st => st.found = some .numpy)
    (fun st => st.found = some .hdf5) (found_kept f .numpy) (found_kept f .hdf5) ?_ ?_ ?_ ?_ ?_ dir h1 h2 _)
  · intro st st' h
    rw [scanOne_save_numpy (.inl rfl)] at h
    obtain ⟨-, n, l, -, -, rfl⟩ := numbered_ok h
    rfl
  · intro st st' h
    rw [scanOne_save_hdf5 (.inl rfl)] at h
    obtain ⟨-, n, l, -, -, rfl⟩ := numbered_ok h
    rfl
  · intro st h
    refine fails_of fun st' h' => ?_
    rw [scanOne_save_numpy (.inl rfl)] at h'
    rcases (numbered_ok h').1 with e | e <;> rw [h] at e <;> cases e
  · intro st h
    refine fails_of fun st' h' => ?_
    rw [scanOne_save_hdf5 (.inl rfl)] at h'
    rcases (numbered_ok h').1 with e | e <;> rw [h] at e <;> cases e
  · intro h
    exact like_not (like_save_numpy f j) (h ▸ like_save_hdf5 f k)

example : Fails (restored (files ["agent-3.npz", "agent-5.hdf5"]) none agent none) :=
  mixed_violation (j := 3) (k := 5) (by decide +kernel) (by decide +kernel) (by decide +kernel) none

/-- Numbers below 100 with the extension `.h5` make restoring fail: five characters are cut off instead of three. -/
theorem h5_violation {dir : List Name} {f : Name} {k : Nat} {format : Option Format} (hf : format = none ∨ format = some .hdf5)
    (hx : format = none → NoExact dir f) (hk : k < 100) (hm : save f k h5 ∈ dir) (ckpt : Option Name) : Fails (restored dir ckpt f format) := by
  refine restored_fails hx (scan_fails (b := save f k h5) (fun _ => True) (fun _ _ _ _ _ => trivial) (fun st _ => ?_) dir hm _ trivial)
  have hsl : slice (f.length + 1) 5 (save f k h5) = [] := by
    have hlen : (Nat.toDigits 10 k).length ≤ 2 := (Nat.length_toDigits_le_iff (by decide) (by decide)).mpr hk
    refine List.drop_eq_nil_of_le ?_
    rw [List.length_take]
    have : (save f k h5).length = f.length + 1 + (Nat.toDigits 10 k).length + 3 := by simp [save, h5]; omega
    omega
  rw [scanOne_hdf5 hf (like_save_h5 f k) (save_ne f k (by decide)) (save_ne f k (by decide)), hsl]
  refine fails_of fun st' h => ?_
  obtain ⟨-, n, l, hn, -⟩ := numbered_ok h
  have : pyInt [] = none := by decide
  rw [this] at hn; cases hn

example : Fails (restored (files ["agent-12.h5"]) none agent none) :=
  h5_violation (k := 12) (.inl rfl) (fun _ => by decide +kernel) (by decide) (by decide +kernel) none

/-- Larger numbers lose their last two digits, so an older save is restored. -/
theorem h5_digits_violation : (restored (files ["agent-7.hdf5", "agent-500.h5"]) none agent none).toOption = some "agent-7.hdf5".toList := by
  decide +kernel

/-- The complete name of a `.h5` file restores the `.hdf5` file next to it. -/
theorem explicit_h5_violation : (restored (files ["agent.h5", "agent.hdf5"]) none "agent.h5".toList none).toOption = some "agent.hdf5".toList := by
  decide +kernel

/-- The last checkpoint is taken even if it belongs to another base name. -/
theorem other_base_violation : (restored (files ["agent-1.index", "other-2.index"]) (some "other-2".toList) agent none).toOption =
    some "other-2.index".toList := by decide +kernel

/-! ## C48 -/

/-- No dots except at the beginning. -/
def Plain (f : Name) : Prop := ∃ d g, f = d ++ g ∧ (∀ c ∈ d, c = '.') ∧ '.' ∉ g

theorem plain_root {f : Name} (h : Plain f) : root f = f := by
  obtain ⟨d, g, rfl, hd, hg⟩ := h
  exact root_dots hd hg

/-- The specification is found for the base name, the base name with a number, and both with an extension, if the base name has no dot except
at its beginning (with an extension dots do no harm) and the numbered name was not itself saved to. Missing: `dotted_violation`,
`appended_checkpoint_violation`. -/
theorem load_finds_partial {dir : List Name} {f : Name} (h0 : f.all (· = '.') = false) (hw : specWritten f ∈ dir) :
    (∀ ext, '.' ∉ ext → specRead dir (f ++ '.' :: ext) = specWritten f) ∧ (Plain f → specRead dir f = specWritten f) ∧
    ∀ k, save f k json ∉ dir →
      (∀ ext, '.' ∉ ext → specRead dir (save f k ('.' :: ext)) = specWritten f) ∧ (Plain f → specRead dir (save f k []) = specWritten f) := by
  have h1 : ∀ s, root s = f → specRead dir s = specWritten f := by
    intro s hs
    rw [specRead, hs]
    exact if_pos hw
  have h2 : ∀ k s, save f k json ∉ dir → root s = f ++ '-' :: Nat.toDigits 10 k → specRead dir s = specWritten f := by
    intro k s hk hs
    rw [specRead, hs]
    rw [if_neg (show f ++ '-' :: Nat.toDigits 10 k ++ json ∉ dir from hk), lastSplit_append f (not_digit_mem (by decide) k)]; dsimp only
    rw [if_pos (allDigits_toDigits k)]; rfl
  refine ⟨fun ext he => h1 _ (root_append he h0), fun hd => h1 _ (plain_root hd), fun k hk => ⟨fun ext he => h2 k _ hk ?_, fun hd => h2 k _ hk ?_⟩⟩
  · refine root_append he ?_
    rw [List.all_append]
    simp
  · rw [save, List.append_nil]
    obtain ⟨d, g, rfl, hd, hg⟩ := hd
    rw [List.append_assoc]
    refine root_dots hd ?_
    simp only [List.mem_append, List.mem_cons, not_or]
    exact ⟨hg, by decide, not_digit_mem (by decide) k⟩

example : specRead (files ["agent.json", "agent-12.npz"]) "agent-12.npz".toList = "agent.json".toList := by decide +kernel
example : specRead (files [".agent.json"]) ".agent-12".toList = ".agent.json".toList := by decide +kernel

/-- Loading never reads the specification of a base name other than the given name without extension, or that without its number. -/
theorem load_reads_own (dir : List Name) (s : Name) :
    specRead dir s = specWritten (root s) ∨
      ∃ g d, root s = g ++ '-' :: d ∧ d ≠ [] ∧ (∀ c ∈ d, c.isDigit = true) ∧ specWritten (root s) ∉ dir ∧ specRead dir s = specWritten g := by
  unfold specRead
  dsimp only
  split
  · exact .inl rfl
  · rename_i hn
    split
    · exact .inl rfl
    · rename_i a b e
      split
      · rename_i hd
        right
        simp only [allDigits, Bool.and_eq_true, decide_eq_true_eq, List.all_eq_true] at hd
        exact ⟨a, b, (lastSplit_some e).1, hd.1, hd.2, hn, rfl⟩
      · exact .inl rfl

example : specRead (files ["agent.json"]) "agent-b2".toList = "agent-b2.json".toList := by decide +kernel

/-- A base name with a dot: loading looks for another file. -/
theorem dotted_violation {a b : Name} (ha : a.all (· = '.') = false) (hb : '.' ∉ b) (dir : List Name) :
    specRead dir (a ++ '.' :: b) ≠ specWritten (a ++ '.' :: b) := by
  intro h
  have h1 := specRead_length dir (a ++ '.' :: b)
  rw [h, root_append hb ha] at h1
  simp [specWritten] at h1
  omega

example : specRead (files ["agent.v2.json"]) "agent.v2".toList = "agent.json".toList := by decide +kernel

/-- A checkpoint saved with an appended number gets two numbers; its specification is not found. -/
theorem appended_checkpoint_violation {dir : List Name} {f : Name} (k j : Nat) (hd : '.' ∉ f) (h1 : save (save f k []) j json ∉ dir) :
    specRead dir (save (save f k []) j []) = save f k json ∧ save f k json ≠ specWritten f := by
  constructor
  · have hr : root (save (save f k []) j []) = save f k [] ++ '-' :: Nat.toDigits 10 j := by
      rw [save, List.append_nil]
      refine root_dotless ?_
      simp only [save, List.append_nil, List.mem_append, List.mem_cons, not_or]
      exact ⟨⟨hd, by decide, not_digit_mem (by decide) k⟩, by decide, not_digit_mem (by decide) j⟩
    rw [specRead, hr]
    rw [if_neg (show save f k [] ++ '-' :: Nat.toDigits 10 j ++ json ∉ dir from h1), lastSplit_append _ (not_digit_mem (by decide) j)]; dsimp only
    rw [if_pos (allDigits_toDigits j)]
    simp [save]
  · exact save_ne f k (by decide)

example : specRead (files ["agent.json", "agent-12-1.index"]) "agent-12-1".toList = "agent-12.json".toList := by decide +kernel

end Verif.Props.Store
