import Verif.Store.Spec

/-! # Lemmas about finding the file to restore -/

namespace Verif.Store

/-! ## Numbers in file names -/

theorem validDigits_all {s : Name} (h : ∀ c ∈ s, c.isDigit = true) (b : Bool) (hb : b = true ∨ s ≠ []) : validDigits b s = true := by
  induction s generalizing b with
  | nil => rcases hb with h | h; · simpa [validDigits] using h
           · exact absurd rfl h
  | cons c s ih =>
    rw [validDigits, if_pos (h c (by simp))]
    exact ih (fun d hd => h d (by simp [hd])) true (.inl rfl)

theorem not_space {c : Char} (h : c.isDigit = true) : isSpace c = false := by
  rw [Char.isDigit_iff_toNat] at h
  unfold isSpace
  have : c ≠ ' ' := by rintro rfl; simp at h
  have h0 : '0'.toNat = 48 := rfl
  have h9 : '9'.toNat = 57 := rfl
  simp [this]; omega

theorem strip_digits {s : Name} (h : ∀ c ∈ s, c.isDigit = true) : strip s = s := by
  have key : ∀ t : Name, (∀ c ∈ t, c.isDigit = true) → t.dropWhile isSpace = t := by
    intro t ht
    cases t with
    | nil => rfl
    | cons c t => rw [List.dropWhile_cons_of_neg (by simp [not_space (ht c (by simp))])]
  rw [strip, key s h, key s.reverse (by simpa using h), List.reverse_reverse]

theorem toDigits_isDigit (k : Nat) : ∀ c ∈ Nat.toDigits 10 k, c.isDigit = true := fun _ hc => Nat.isDigit_of_mem_toDigits (by decide) (by decide) hc

theorem pyInt_digits (k : Nat) : pyInt (Nat.toDigits 10 k) = some (k : Int) := by
  have hd := toDigits_isDigit k
  have hne : Nat.toDigits 10 k ≠ [] := Nat.toDigits_ne_nil
  have hn : natOf (Nat.toDigits 10 k) = some (k : Int) := by
    rw [natOf, if_pos (validDigits_all hd _ (.inr hne)), List.filter_eq_self.mpr hd]
    simp
  unfold pyInt
  rw [strip_digits hd]
  split
  · rename_i cs he
    have := hd '-' (by rw [he]; simp)
    simp at this
  · rename_i cs he
    have := hd '+' (by rw [he]; simp)
    simp at this
  · exact hn

theorem pyStr_nat (k : Nat) : pyStr (k : Int) = Nat.toDigits 10 k := by
  simp [pyStr]

/-! ## Names of saves -/

theorem slice_save (f : Name) (k : Nat) (ext : Name) : slice (f.length + 1) ext.length (save f k ext) = Nat.toDigits 10 k := by
  have h : save f k ext = (f ++ '-' :: Nat.toDigits 10 k) ++ ext := rfl
  rw [slice, h, List.length_append, Nat.add_sub_cancel, List.take_left, show f ++ '-' :: Nat.toDigits 10 k = (f ++ ['-']) ++ Nat.toDigits 10 k by simp]
  exact List.drop_left' (by simp)

theorem prefix_save (f : Name) (k : Nat) (ext : Name) : f <+: save f k ext := ⟨'-' :: Nat.toDigits 10 k ++ ext, by simp [save]⟩
theorem suffix_save (f : Name) (k : Nat) (ext : Name) : ext <:+ save f k ext := ⟨f ++ '-' :: Nat.toDigits 10 k, by simp [save]⟩

theorem save_inj {f ext : Name} {j k : Nat} (h : save f j ext = save f k ext) : j = k := by
  have h1 := slice_save f j ext
  rw [h, slice_save] at h1
  have h2 := pyInt_digits j
  rw [← h1, pyInt_digits] at h2
  have := Option.some.inj h2
  omega

theorem save_ne (f : Name) (k : Nat) {ext e : Name} (he : e.head? = some '.') : save f k ext ≠ f ++ e := by
  intro h
  rw [save, List.append_assoc, List.append_cancel_left_eq] at h
  rw [← h] at he
  simp at he

theorem suffix_last {e name : Name} (h : e <:+ name) (hne : e ≠ []) : name.getLast? = e.getLast? := by
  obtain ⟨t, rfl⟩ := h
  rw [List.getLast?_append]
  cases he : e.getLast? with
  | none => exact absurd (List.getLast?_eq_none_iff.mp he) hne
  | some c => rfl

theorem npz_last {name : Name} (h : npz <:+ name) : name.getLast? = some 'z' := (suffix_last h (by decide)).trans (by decide)
theorem hdf5_last {name : Name} (h : hdf5 <:+ name) : name.getLast? = some '5' := (suffix_last h (by decide)).trans (by decide)
theorem h5_last {name : Name} (h : h5 <:+ name) : name.getLast? = some '5' := (suffix_last h (by decide)).trans (by decide)
theorem index_last {name : Name} (h : index <:+ name) : name.getLast? = some 'x' := (suffix_last h (by decide)).trans (by decide)

/-! ## One file of the directory -/

/-- Formats that allow numpy archives. -/
def WantsNumpy (format : Option Format) : Prop := format = none ∨ format = some .numpy

/-- Formats that allow HDF5 archives. -/
def WantsHdf5 (format : Option Format) : Prop := format = none ∨ format = some .hdf5

theorem scanOne_cases (format : Option Format) (f name : Name) (st : Scan) :
    (WantsNumpy format ∧ name = f ++ npz ∧ scanOne format f name st = exact .numpy st) ∨
    (WantsNumpy format ∧ LikeNumpy f name ∧ name ≠ f ++ npz ∧ scanOne format f name st = numbered .numpy (slice (f.length + 1) 4 name) st) ∨
    (WantsHdf5 format ∧ (name = f ++ hdf5 ∨ name = f ++ h5) ∧ scanOne format f name st = exact .hdf5 st) ∨
    (WantsHdf5 format ∧ LikeHdf5 f name ∧ name ≠ f ++ hdf5 ∧ name ≠ f ++ h5 ∧
      scanOne format f name st = numbered .hdf5 (slice (f.length + 1) 5 name) st) ∨
    (¬ (WantsNumpy format ∧ LikeNumpy f name) ∧ ¬ (WantsHdf5 format ∧ LikeHdf5 f name) ∧ scanOne format f name st = .ok st) := by
  unfold scanOne
  split
  · rename_i h; exact .inl ⟨h.1, h.2, rfl⟩
  · rename_i h1
    split
    · rename_i h
      rw [List.isPrefixOf_iff_prefix, List.isSuffixOf_iff_suffix] at h
      exact .inr (.inl ⟨h.1, h.2, fun e => h1 ⟨h.1, e⟩, rfl⟩)
    · rename_i h2
      rw [List.isPrefixOf_iff_prefix, List.isSuffixOf_iff_suffix] at h2
      split
      · rename_i h; exact .inr (.inr (.inl ⟨h.1, h.2, rfl⟩))
      · rename_i h3
        split
        · rename_i h
          rw [List.isPrefixOf_iff_prefix, List.isSuffixOf_iff_suffix, List.isSuffixOf_iff_suffix] at h
          exact .inr (.inr (.inr (.inl ⟨h.1, h.2, fun e => h3 ⟨h.1, .inl e⟩, fun e => h3 ⟨h.1, .inr e⟩, rfl⟩)))
        · rename_i h4
          rw [List.isPrefixOf_iff_prefix, List.isSuffixOf_iff_suffix, List.isSuffixOf_iff_suffix] at h4
          exact .inr (.inr (.inr (.inr ⟨fun e => h2 ⟨e.1, e.2⟩, fun e => h4 ⟨e.1, e.2⟩, rfl⟩)))

theorem like_not {f name : Name} (h : LikeNumpy f name) : ¬ LikeHdf5 f name := by
  rintro ⟨-, h' | h'⟩
  · have := (npz_last h.2).symm.trans (hdf5_last h'); simp at this
  · have := (npz_last h.2).symm.trans (h5_last h'); simp at this

theorem exact_numpy (f : Name) : LikeNumpy f (f ++ npz) := ⟨⟨_, rfl⟩, ⟨_, rfl⟩⟩
theorem exact_hdf5 (f : Name) : LikeHdf5 f (f ++ hdf5) := ⟨⟨_, rfl⟩, .inl ⟨_, rfl⟩⟩
theorem exact_h5 (f : Name) : LikeHdf5 f (f ++ h5) := ⟨⟨_, rfl⟩, .inr ⟨_, rfl⟩⟩

theorem scanOne_numpy {format : Option Format} (hf : WantsNumpy format) {f name : Name} (h : LikeNumpy f name) (hne : name ≠ f ++ npz) (st : Scan) :
    scanOne format f name st = numbered .numpy (slice (f.length + 1) 4 name) st := by
  rcases scanOne_cases format f name st with e | e | e | e | e
  · exact absurd e.2.1 hne
  · exact e.2.2.2
  · refine absurd ?_ (like_not h)
    rcases e.2.1 with rfl | rfl
    · exact exact_hdf5 f
    · exact exact_h5 f
  · exact absurd e.2.1 (like_not h)
  · exact absurd ⟨hf, h⟩ e.1

theorem scanOne_hdf5 {format : Option Format} (hf : WantsHdf5 format) {f name : Name} (h : LikeHdf5 f name) (h1 : name ≠ f ++ hdf5)
    (h2 : name ≠ f ++ h5) (st : Scan) : scanOne format f name st = numbered .hdf5 (slice (f.length + 1) 5 name) st := by
  rcases scanOne_cases format f name st with e | e | e | e | e
  · exact absurd h (like_not (e.2.1 ▸ exact_numpy f))
  · exact absurd h (like_not e.2.1)
  · rcases e.2.1 with e | e
    · exact absurd e h1
    · exact absurd e h2
  · exact e.2.2.2.2
  · exact absurd ⟨hf, h⟩ e.2.1

theorem like_save_numpy (f : Name) (k : Nat) : LikeNumpy f (save f k npz) := ⟨prefix_save _ _ _, suffix_save _ _ _⟩
theorem like_save_hdf5 (f : Name) (k : Nat) : LikeHdf5 f (save f k hdf5) := ⟨prefix_save _ _ _, .inl (suffix_save _ _ _)⟩
theorem like_save_h5 (f : Name) (k : Nat) : LikeHdf5 f (save f k h5) := ⟨prefix_save _ _ _, .inr (suffix_save _ _ _)⟩

theorem scanOne_save_numpy {format : Option Format} (hf : WantsNumpy format) (f : Name) (k : Nat) (st : Scan) :
    scanOne format f (save f k npz) st = numbered .numpy (Nat.toDigits 10 k) st := by
  rw [scanOne_numpy hf (like_save_numpy f k) (save_ne f k (by decide))]
  exact congrArg (numbered .numpy · st) (slice_save f k npz)

theorem scanOne_save_hdf5 {format : Option Format} (hf : WantsHdf5 format) (f : Name) (k : Nat) (st : Scan) :
    scanOne format f (save f k hdf5) st = numbered .hdf5 (Nat.toDigits 10 k) st := by
  rw [scanOne_hdf5 hf (like_save_hdf5 f k) (save_ne f k (by decide)) (save_ne f k (by decide))]
  exact congrArg (numbered .hdf5 · st) (slice_save f k hdf5)

theorem numbered_ok {fmt : Format} {digits : Name} {st st' : Scan} (h : numbered fmt digits st = .ok st') :
    (st.found = none ∨ st.found = some fmt) ∧ ∃ n l, pyInt digits = some n ∧ st.latest = some l ∧ st' = ⟨some fmt, some (if n > l then n else l)⟩ := by
  unfold numbered at h
  split at h
  · rename_i hf
    refine ⟨hf, ?_⟩
    split at h
    · cases h
    · rename_i n hn
      split at h
      · cases h
      · rename_i l hl
        exact ⟨n, l, hn, hl, (Except.ok.inj h).symm⟩
  · cases h

theorem exact_ok {fmt : Format} {st st' : Scan} (h : exact fmt st = .ok st') : st.found = none ∧ st' = ⟨some fmt, none⟩ := by
  unfold exact at h
  split at h
  · exact ⟨by assumption, (Except.ok.inj h).symm⟩
  · cases h

/-! ## The whole directory -/

theorem scan_cons_ok {format : Option Format} {f name : Name} {dir : List Name} {st st' : Scan} (h : scan format f (name :: dir) st = .ok st') :
    ∃ st1, scanOne format f name st = .ok st1 ∧ scan format f dir st1 = .ok st' := by
  rw [scan] at h
  split at h
  · rename_i st1 e; exact ⟨st1, e, h⟩
  · cases h

theorem scan_pass {format : Option Format} {f : Name} {l1 l2 : List Name} {st : Scan} (h : ∀ name ∈ l1, ∀ st, scanOne format f name st = .ok st) :
    scan format f (l1 ++ l2) st = scan format f l2 st := by
  induction l1 with
  | nil => rfl
  | cons name l1 ih =>
    rw [List.cons_append, scan, h name (by simp)]
    exact ih fun n hn => h n (by simp [hn])

/-- If every file is a save or does not count, the scan ends with the largest number. -/
theorem scan_saves {format : Option Format} {f ext : Name} {fmt : Format}
    (hsave : ∀ k st, scanOne format f (save f k ext) st = numbered fmt (Nat.toDigits 10 k) st)
    (dir : List Name) (hdir : ∀ name ∈ dir, (∃ k, name = save f k ext) ∨ ∀ st, scanOne format f name st = .ok st) (st : Scan) (l : Int)
    (hl : st.latest = some l) (hf : st.found = none ∨ st.found = some fmt) :
    ∃ st', scan format f dir st = .ok st' ∧
      ((st' = st ∧ ∀ j, save f j ext ∉ dir) ∨
        ∃ k, st' = ⟨some fmt, some k⟩ ∧ (k = l ∨ ∃ j : Nat, k = j ∧ save f j ext ∈ dir) ∧ l ≤ k ∧ ∀ j : Nat, save f j ext ∈ dir → (j : Int) ≤ k) := by
  induction dir generalizing st l with
  | nil => exact ⟨st, rfl, .inl ⟨rfl, by simp⟩⟩
  | cons name dir ih =>
    have ih := fun st l hl hf => ih (fun n hn => hdir n (by simp [hn])) st l hl hf
    rcases hdir name (by simp) with ⟨k, rfl⟩ | hskip
    · have h1 : scanOne format f (save f k ext) st = .ok ⟨some fmt, some (if (k : Int) > l then k else l)⟩ := by
        rw [hsave, numbered, if_pos hf, pyInt_digits]; simp only [hl]
      obtain ⟨st', h2, h3⟩ := ih ⟨some fmt, some (if (k : Int) > l then k else l)⟩ _ rfl (.inr rfl)
      refine ⟨st', by rw [scan, h1]; exact h2, .inr ?_⟩
      rcases h3 with ⟨rfl, h3⟩ | ⟨m, rfl, hm, hlm, hall⟩
      · refine ⟨_, rfl, ?_, by split <;> omega, fun j hj => ?_⟩
        · by_cases hk : (k : Int) > l
          · rw [if_pos hk]; exact .inr ⟨k, rfl, by simp⟩
          · rw [if_neg hk]; exact .inl rfl
        · rcases List.mem_cons.mp hj with e | e
          · rw [save_inj e]; split <;> omega
          · exact absurd e (h3 j)
      · refine ⟨m, rfl, ?_, by split at hlm <;> omega, fun j hj => ?_⟩
        · rcases hm with hm | ⟨j, hj, hjm⟩
          · by_cases hk : (k : Int) > l
            · rw [if_pos hk] at hm; exact .inr ⟨k, hm, by simp⟩
            · rw [if_neg hk] at hm; exact .inl hm
          · exact .inr ⟨j, hj, by simp [hjm]⟩
        · rcases List.mem_cons.mp hj with e | e
          · rw [save_inj e]; split at hlm <;> omega
          · exact hall j e
    · obtain ⟨st', h2, h3⟩ := ih st l hl hf
      refine ⟨st', by rw [scan, hskip]; exact h2, ?_⟩
      have hne : ∀ j, name ≠ save f j ext := by
        rintro j rfl
        have h4 := hskip ⟨none, none⟩
        rw [hsave, numbered, if_pos (.inl rfl), pyInt_digits] at h4
        cases h4
      rcases h3 with ⟨rfl, h3⟩ | ⟨m, rfl, hm, hlm, hall⟩
      · exact .inl ⟨rfl, fun j hj => (List.mem_cons.mp hj).elim (fun e => hne j e.symm) (h3 j)⟩
      · refine .inr ⟨m, rfl, hm.imp id fun ⟨j, a, b⟩ => ⟨j, a, by simp [b]⟩, hlm, fun j hj => ?_⟩
        exact (List.mem_cons.mp hj).elim (fun e => absurd e.symm (hne j)) (hall j)

theorem scanOne_mono {format : Option Format} {f name : Name} {st st' : Scan} (h : scanOne format f name st = .ok st') {l' : Int}
    (hl : st'.latest = some l') : ∃ l, st.latest = some l ∧ l ≤ l' := by
  have key : ∀ fmt d, numbered fmt d st = .ok st' → ∃ l, st.latest = some l ∧ l ≤ l' := by
    intro fmt d h
    obtain ⟨-, n, l, -, h1, rfl⟩ := numbered_ok h
    refine ⟨l, h1, ?_⟩
    have := Option.some.inj hl
    split at this <;> omega
  rcases scanOne_cases format f name st with e | e | e | e | e
  · rw [e.2.2] at h; rw [(exact_ok h).2] at hl; cases hl
  · rw [e.2.2.2] at h; exact key _ _ h
  · rw [e.2.2] at h; rw [(exact_ok h).2] at hl; cases hl
  · rw [e.2.2.2.2] at h; exact key _ _ h
  · rw [e.2.2] at h; cases h; exact ⟨l', hl, Int.le_refl _⟩

/-- Whatever else is in the directory, no save has a larger number than the result. -/
theorem scan_sound {format : Option Format} {f ext : Name} {fmt : Format}
    (hsave : ∀ k st, scanOne format f (save f k ext) st = numbered fmt (Nat.toDigits 10 k) st)
    (dir : List Name) (st st' : Scan) (h : scan format f dir st = .ok st') (l' : Int) (hl : st'.latest = some l') :
    (∃ l, st.latest = some l ∧ l ≤ l') ∧ ∀ j : Nat, save f j ext ∈ dir → (j : Int) ≤ l' := by
  induction dir generalizing st with
  | nil => cases h; exact ⟨⟨l', hl, Int.le_refl _⟩, by simp⟩
  | cons name dir ih =>
    obtain ⟨st1, h1, h2⟩ := scan_cons_ok h
    obtain ⟨⟨l1, hl1, hle⟩, hall⟩ := ih st1 h2
    obtain ⟨l0, hl0, hle0⟩ := scanOne_mono h1 hl1
    refine ⟨⟨l0, hl0, by omega⟩, fun j hj => ?_⟩
    rcases List.mem_cons.mp hj with e | e
    · rw [← e, hsave] at h1
      obtain ⟨-, n, l, hn, -, rfl⟩ := numbered_ok h1
      rw [pyInt_digits] at hn
      have hn := Option.some.inj hn
      have := Option.some.inj hl1
      split at this <;> omega
    · exact hall j e

/-! ## Failing scans -/

def Fails {α : Type} (r : Except Error α) : Prop := ∃ e, r = .error e

theorem fails_of {α : Type} {r : Except Error α} (h : ∀ a, r ≠ .ok a) : Fails r := by
  cases r with
  | error e => exact ⟨e, rfl⟩
  | ok a => exact absurd rfl (h a)

theorem not_fails {α : Type} {r : Except Error α} {a : α} (h : Fails r) : r ≠ .ok a := by
  obtain ⟨e, rfl⟩ := h; simp

theorem scan_fails {format : Option Format} {f b : Name} (P : Scan → Prop)
    (keep : ∀ name st st', scanOne format f name st = .ok st' → P st → P st') (hb : ∀ st, P st → Fails (scanOne format f b st))
    (dir : List Name) (hd : b ∈ dir) (st : Scan) (hst : P st) : Fails (scan format f dir st) := by
  refine fails_of fun st' h => ?_
  induction dir generalizing st with
  | nil => simp at hd
  | cons name dir ih =>
    obtain ⟨st1, h1, h2⟩ := scan_cons_ok h
    rcases List.mem_cons.mp hd with rfl | hd
    · exact not_fails (hb st hst) h1
    · exact ih hd st1 (keep _ _ _ h1 hst) h2

/-- Two files of which either makes the other one fail. -/
theorem scan_pair {format : Option Format} {f a b : Name} (Pa Pb : Scan → Prop)
    (keepa : ∀ name st st', scanOne format f name st = .ok st' → Pa st → Pa st')
    (keepb : ∀ name st st', scanOne format f name st = .ok st' → Pb st → Pb st')
    (ha : ∀ st st', scanOne format f a st = .ok st' → Pa st') (hb : ∀ st st', scanOne format f b st = .ok st' → Pb st')
    (ea : ∀ st, Pb st → Fails (scanOne format f a st)) (eb : ∀ st, Pa st → Fails (scanOne format f b st))
    (hab : a ≠ b) (dir : List Name) (hda : a ∈ dir) (hdb : b ∈ dir) (st : Scan) : Fails (scan format f dir st) := by
  refine fails_of fun st' h => ?_
  induction dir generalizing st with
  | nil => simp at hda
  | cons name dir ih =>
    obtain ⟨st1, h1, h2⟩ := scan_cons_ok h
    rcases List.mem_cons.mp hda with rfl | hda'
    · have hdb : b ∈ dir := (List.mem_cons.mp hdb).resolve_left fun e => hab e.symm
      exact not_fails (scan_fails Pa keepa eb dir hdb st1 (ha _ _ h1)) h2
    · rcases List.mem_cons.mp hdb with rfl | hdb'
      · exact not_fails (scan_fails Pb keepb ea dir hda' st1 (hb _ _ h1)) h2
      · exact ih hda' hdb' st1 h2

theorem found_kept {format : Option Format} (f : Name) (x : Format) (name : Name) (st st' : Scan) (h : scanOne format f name st = .ok st')
    (hx : st.found = some x) : st'.found = some x := by
  have key : ∀ fmt d, numbered fmt d st = .ok st' → st'.found = some x := by
    intro fmt d h
    obtain ⟨hf, n, l, -, -, rfl⟩ := numbered_ok h
    rcases hf with hf | hf
    · rw [hf] at hx; cases hx
    · rw [← hx, hf]
  rcases scanOne_cases format f name st with e | e | e | e | e
  · rw [e.2.2] at h; rw [(exact_ok h).1] at hx; cases hx
  · rw [e.2.2.2] at h; exact key _ _ h
  · rw [e.2.2] at h; rw [(exact_ok h).1] at hx; cases hx
  · rw [e.2.2.2.2] at h; exact key _ _ h
  · rw [e.2.2] at h; cases h; exact hx

theorem latest_kept {format : Option Format} (f name : Name) (st st' : Scan) (h : scanOne format f name st = .ok st')
    (hx : st.latest = none) : st'.latest = none := by
  cases hl : st'.latest with
  | none => rfl
  | some l =>
    obtain ⟨l0, h0, -⟩ := scanOne_mono h hl
    rw [hx] at h0; cases h0

theorem infer_fails {dir : List Name} {ckpt : Option Name} {f : Name} {format : Option Format}
    (h : Fails (scan format f dir ⟨none, some (-1)⟩)) : Fails (infer dir ckpt f format) := by
  obtain ⟨e, h⟩ := h
  exact ⟨e, by rw [infer, h]⟩

/-- Neither the file itself nor one with a known extension is there. -/
def NoExact (dir : List Name) (f : Name) : Prop := f ∉ dir ∧ f ++ index ∉ dir ∧ f ++ npz ∉ dir ∧ f ++ hdf5 ∉ dir ∧ f ++ h5 ∉ dir

instance (dir : List Name) (f : Name) : Decidable (NoExact dir f) := inferInstanceAs (Decidable (_ ∧ _))

theorem choose_infer {dir : List Name} {f : Name} {format : Option Format} (h : format = none → NoExact dir f) (ckpt : Option Name) :
    choose dir ckpt f format = infer dir ckpt f format := by
  unfold choose
  rw [if_neg fun e => (h e.1).1 e.2, if_neg fun e => (h e.1).2.1 e.2, if_neg fun e => (h e.1).2.2.1 e.2,
    if_neg fun e => e.2.elim (h e.1).2.2.2.1 (h e.1).2.2.2.2]

theorem restored_fails {dir : List Name} {ckpt : Option Name} {f : Name} {format : Option Format} (h : format = none → NoExact dir f)
    (hs : Fails (scan format f dir ⟨none, some (-1)⟩)) : Fails (restored dir ckpt f format) := by
  obtain ⟨e, he⟩ := infer_fails (ckpt := ckpt) hs
  exact ⟨e, by rw [restored, choose_infer h, he]⟩

theorem scan_skip {format : Option Format} {f : Name} (dir : List Name)
    (h : ∀ name ∈ dir, format = some .checkpoint ∨ ¬ LikeNumpy f name ∧ ¬ LikeHdf5 f name) (st : Scan) : scan format f dir st = .ok st := by
  induction dir with
  | nil => rfl
  | cons name dir ih =>
    have h1 : scanOne format f name st = .ok st := by
      have hn := h name (by simp)
      rcases scanOne_cases format f name st with e | e | e | e | e
      · rcases hn with rfl | hn
        · rcases e.1 with e | e <;> cases e
        · exact absurd (e.2.1 ▸ exact_numpy f) hn.1
      · rcases hn with rfl | hn
        · rcases e.1 with e | e <;> cases e
        · exact absurd e.2.1 hn.1
      · rcases hn with rfl | hn
        · rcases e.1 with e | e <;> cases e
        · rcases e.2.1 with rfl | rfl
          · exact absurd (exact_hdf5 f) hn.2
          · exact absurd (exact_h5 f) hn.2
      · rcases hn with rfl | hn
        · rcases e.1 with e | e <;> cases e
        · exact absurd e.2.1 hn.2
      · exact e.2.2
    rw [scan, h1]
    exact ih fun n hn => h n (by simp [hn])

/-! ## What is opened -/

theorem dropEnd_append (g ext : Name) : dropEnd ext.length (g ++ ext) = g := by simp [dropEnd]

theorem restored_ok {dir : List Name} {ckpt : Option Name} {f name : Name} {format : Option Format} (h : restored dir ckpt f format = .ok name) :
    ∃ r, choose dir ckpt f format = .ok r ∧ opened dir r = .ok name := by
  rw [restored] at h
  split at h
  · rename_i r e; exact ⟨r, e, h⟩
  · cases h

theorem openFile_ok {dir : List Name} {name name' : Name} (h : openFile dir name = .ok name') : name' = name ∧ name ∈ dir := by
  unfold openFile at h
  split at h
  · cases h; exact ⟨rfl, by assumption⟩
  · cases h

theorem opened_numpy {dir : List Name} {r : Name × Format} {f : Name} {k : Nat} (h : opened dir r = .ok (save f k npz)) :
    r.2 = .numpy ∧ save f k npz = r.1 ++ npz ∧ save f k npz ∈ dir := by
  have hz := npz_last (suffix_save f k npz)
  unfold opened at h
  split at h
  · have e := (openFile_ok h).1
    rw [e, index_last ⟨_, rfl⟩] at hz; simp at hz
  · rename_i e
    have e' := openFile_ok h
    exact ⟨e, e'.1, e'.1 ▸ e'.2⟩
  · split at h
    · have e := (openFile_ok h).1
      rw [e, hdf5_last ⟨_, rfl⟩] at hz; simp at hz
    · have e := (openFile_ok h).1
      rw [e, h5_last ⟨_, rfl⟩] at hz; simp at hz

theorem opened_hdf5 {dir : List Name} {r : Name × Format} {f : Name} {k : Nat} (h : opened dir r = .ok (save f k hdf5)) :
    r.2 = .hdf5 ∧ save f k hdf5 = r.1 ++ hdf5 ∧ save f k hdf5 ∈ dir := by
  have hz := hdf5_last (suffix_save f k hdf5)
  unfold opened at h
  split at h
  · have e := (openFile_ok h).1
    rw [e, index_last ⟨_, rfl⟩] at hz; simp at hz
  · have e := (openFile_ok h).1
    rw [e, npz_last ⟨_, rfl⟩] at hz; simp at hz
  · rename_i e
    split at h
    · have e' := openFile_ok h
      exact ⟨e, e'.1, e'.1 ▸ e'.2⟩
    · have e1 := (openFile_ok h).1
      exfalso
      have h1 : hdf5 <:+ r.1 ++ h5 := e1 ▸ suffix_save f k hdf5
      obtain ⟨t, ht⟩ := h1
      have := congrArg (fun l : Name => l.reverse.take 3) ht
      simp [hdf5, h5] at this

theorem pyStr_inj {n : Int} {k : Nat} (h : pyStr n = Nat.toDigits 10 k) : n = k := by
  unfold pyStr at h
  split at h
  · have := toDigits_isDigit k '-' (by rw [← h]; simp)
    simp at this
  · rename_i hn
    have h1 := congrArg (Nat.ofDigitChars 10 · 0) h
    simp at h1
    omega

theorem choose_numbered {dir : List Name} {ckpt : Option Name} {f : Name} {format : Option Format} {r : Name × Format} {k : Nat}
    (h : choose dir ckpt f format = .ok r) (hg : r.1 = f ++ '-' :: Nat.toDigits 10 k) (hc : r.2 ≠ .checkpoint) :
    ∃ st, scan format f dir ⟨none, some (-1)⟩ = .ok st ∧ (format = none ∨ format = some r.2) ∧ st.latest = some (k : Int) := by
  have hlen : f.length < r.1.length := by rw [hg]; simp
  have hd : ∀ k, (dropEnd k f).length ≤ f.length := fun k => by simp [dropEnd]
  unfold choose at h
  split at h
  · unfold complete at h
    split at h
    · cases h; exact absurd rfl hc
    · split at h
      · cases h; have := hd 4; dsimp only at hlen; omega
      · split at h
        · cases h; have := hd 5; dsimp only at hlen; omega
        · split at h
          · cases h; have := hd 3; dsimp only at hlen; omega
          · cases h
  · split at h
    · cases h; exact absurd rfl hc
    · split at h
      · cases h; exact absurd hlen (by simp)
      · split at h
        · cases h; exact absurd hlen (by simp)
        · unfold infer at h
          split at h
          · cases h
          · rename_i st hst
            refine ⟨st, hst, ?_⟩
            split at h
            · unfold chooseCheckpoint at h
              split at h
              · split at h
                · cases h; exact absurd rfl hc
                · split at h
                  · cases h
                  · cases h; exact absurd rfl hc
              · cases h
            · unfold chooseFound at h
              split at h
              · cases h
              · rename_i fmt _
                split at h
                · rename_i hf
                  cases h
                  refine ⟨hf, ?_⟩
                  dsimp only at hg
                  split at hg
                  · have := congrArg List.length hg
                    simp at this
                  · rename_i n hn
                    rw [List.append_cancel_left_eq] at hg
                    rw [hn, pyStr_inj (List.cons.inj hg).2]
                · cases h

end Verif.Store
