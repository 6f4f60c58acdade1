import Verif.Act.CallLemmas

/-!
# `Agent.act`: lemmas on rejected calls
-/

namespace Verif.Act

open Verif.Feed

/-- A call of training up to its index. -/
theorem before_training {spec : Spec} {flags : List Bool} {n : Nat} {states masks : Flat} {s : StatesIn} {form : Form}
    (p : ParallelIn) (det : Bool) (hs : Separable spec) (hm : Match n spec.states states) (hg : GivenMasks spec n masks)
    (hgiven : Given n states masks s form) :
    ∃ f, before spec flags ⟨s, .absent, p, false, det⟩ = (do
        let par ← parallelArg ⟨f, form.batched, n, form.iter⟩ p
        let ps ← positions flags.length par.indices
        check (ps.all (fun p => flags.getD p false)) .order
        pure ⟨⟨f, form.batched, n, form.iter⟩, [], par, ps⟩) ∧
      ∀ net par ps e, parallelTensor flags.length par = .error e →
        after spec net flags.length ⟨s, .absent, p, false, det⟩ ⟨⟨f, form.batched, n, form.iter⟩, [], par, ps⟩ = .error e := by
  obtain ⟨f, st, hproc, hpop, hdrop⟩ := processed hs hm hg hgiven
  refine ⟨f, ?_, ?_⟩
  · unfold before
    show (processStates spec.states s >>= _) = _
    rw [hproc, bind_ok]
    unfold modeArgs
    rw [if_neg Bool.false_ne_true]
  · intro net par ps e he
    have hsts := toTensors_match false hm (names_nodup hs.states)
    have hmks := toTensors_match false (masks_match hs hg) (maskEnts_nodup (names_nodup hs.actions))
    unfold after tensors
    dsimp only
    rw [hpop]
    dsimp only
    rw [hdrop, bind_ok, hsts, bind_ok, internalsTensor, if_neg (by simp), bind_ok]
    rw [hmks, bind_ok, if_neg Bool.false_ne_true, he]
    rfl

theorem act_error {spec : Spec} {net : Net} {flags : List Bool} {a : Args} {e : Err} (h : before spec flags a = .error e) :
    act spec net flags a = (flags, .error e) := by
  unfold act
  rw [h]

/-- The array of indices of a call. -/
theorem parallel_indices {n : Nat} {l : List Int} {p : ParallelIn} {form : Form} {f : Flat} (h : Indices n l p form) (h1 : form = .single → n = 1) :
    parallelArg ⟨f, form.batched, n, form.iter⟩ p = .ok (.flat l) := by
  cases h with
  | single => rw [h1 rfl]; rfl
  | rows hl _ =>
    show (if l.length = n then _ else _) = _
    rw [if_pos hl]
  | columns hl _ =>
    show (if l.length = n then _ else _) = _
    rw [if_pos hl]

/-- The first error in a list, if all errors are the same. -/
theorem mapM_same {α β : Type} {f : α → Except Err β} {e : Err} : ∀ {l : List α}, (∀ a ∈ l, ∀ e', f a = .error e' → e' = e) →
    (∃ a ∈ l, f a = .error e) → l.mapM f = .error e
  | [], _, ⟨_, h, _⟩ => absurd h List.not_mem_nil
  | a :: r, hall, hex => by
    rw [List.mapM_cons]
    cases ha : f a with
    | error e' =>
      rw [hall a List.mem_cons_self e' ha]
      rfl
    | ok b =>
      obtain ⟨c, hc, hce⟩ := hex
      rcases List.mem_cons.1 hc with h | h
      · rw [h, ha] at hce; exact absurd hce nofun
      · rw [bind_ok, mapM_same (fun a ha => hall a (List.mem_cons_of_mem _ ha)) ⟨c, h, hce⟩]
        rfl

theorem position_error {n : Nat} {p : Int} {e : Err} (h : position n p = .error e) : e = .index := by
  unfold position at h
  split at h
  · split at h
    · exact absurd h nofun
    · exact (Except.error.inj h).symm
  · split at h
    · exact absurd h nofun
    · exact (Except.error.inj h).symm

/-- Values of a name in a dictionary of one time step. -/
theorem picks_value {f : Flat} {i : Nat} {d : Dict} (hn : (f.map Prod.fst).Nodup) (h : Picks f i d) {k : String} {x : Nd}
    (hx : (some k, x) ∈ f) : valueOf k d = some (row x i) := by
  have hk : some k ∈ d.map (fun e => some e.1) := by
    rw [h.1]; exact List.mem_map.2 ⟨_, hx, rfl⟩
  obtain ⟨e, he, hek⟩ := List.mem_map.1 hk
  have hnd : (d.map Prod.fst).Nodup := by
    rw [← h.1] at hn
    have : d.map (fun e => some e.1) = (d.map Prod.fst).map some := by rw [List.map_map]; rfl
    rw [this] at hn
    exact List.Pairwise.of_map some (fun a b h e => h (congrArg some e)) hn
  obtain ⟨y, hy, hrow⟩ := h.2 e he
  have hek' : e.1 = k := Option.some.inj hek
  have h1 := valueOf_mem hnd e he
  rw [hek'] at h1 hy
  have hxy : x = y := Option.some.inj ((valueOf_mem hn _ hx).symm.trans (valueOf_mem hn _ hy))
  rw [h1, hxy, hrow]

end Verif.Act
