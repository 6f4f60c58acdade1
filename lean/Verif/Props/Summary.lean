import Verif.Summary.Lemmas
import Verif.Summary.Directories
import Verif.Summary.Names

/-! # Summaries and tracked tensors -/

namespace Verif.Props.Summary

open Verif.Summary

variable {ν : Type}

/-! ### C97: what is written -/

/-- C97: after a summary is registered, it is written by a call exactly if its counter has a value which it did not have at earlier calls, as long as counters do
not decrease; then every name is written with its value and the counter, and otherwise nothing. Missing: counters decrease when an earlier state of the
agent is restored (`restored_violation`). -/
theorem first_partial (enabled : Labels) (cs : List (Call ν)) (m m' : Module ν) (outs : List (List (Entry ν))) (h : runCalls enabled cs m = .ok (m', outs))
    (i : Nat) (c : Call ν) (hc : cs[i]? = some c) (hl : enabled.has c.label = true) (hreg : m.steps.lookup c.name.head = some (-1)) (h0 : 0 ≤ c.unit)
    (hmono : ∀ d, Earlier enabled cs i c d → d.unit ≤ c.unit) :
    ((∀ d, Earlier enabled cs i c d → d.unit ≠ c.unit) → outs[i]? = some c.entries) ∧
    ((∃ d, Earlier enabled cs i c d ∧ d.unit = c.unit) → outs[i]? = some []) := by
  rcases (runCalls_written enabled cs m m' outs h).2 i c hc with ⟨h1, -⟩ | ⟨-, last, h2, h3⟩
  · rw [hl] at h1; cases h1
  · rw [hreg] at h2
    injection h2 with h2
    constructor
    · intro hne
      rcases h3 with ⟨-, -, h3⟩ | ⟨h3, -⟩
      · exact h3
      · refine (h3 ⟨by omega, fun d hd => ?_⟩).elim
        have := hmono d hd
        have := hne d hd
        omega
    · rintro ⟨d, hd, he⟩
      rcases h3 with ⟨-, h3, -⟩ | ⟨-, h3⟩
      · have := h3 d hd
        omega
      · exact h3

/-- C97: whatever the counters are, a summary is written with larger and larger values of its counter. -/
theorem increasing (enabled : Labels) (cs : List (Call ν)) (m m' : Module ν) (outs : List (List (Entry ν))) (h : runCalls enabled cs m = .ok (m', outs))
    (i j : Nat) (hij : i < j) (c d : Call ν) (hc : cs[i]? = some c) (hd : cs[j]? = some d) (hn : c.name.head = d.name.head)
    (e f : Entry ν) (he : ∃ l, outs[i]? = some l ∧ e ∈ l) (hf : ∃ l, outs[j]? = some l ∧ f ∈ l) : e.step < f.step ∧ e.step = c.unit ∧ f.step = d.unit := by
  have hstep : ∀ (c : Call ν) (e : Entry ν), e ∈ c.entries → e.step = c.unit := by
    intro c e he
    rw [Call.entries, ← List.map_uncurry_zip_eq_zipWith, List.mem_map] at he
    obtain ⟨p, -, rfl⟩ := he
    rfl
  have hw := (runCalls_written enabled cs m m' outs h).2
  have one : ∀ (i : Nat) (c : Call ν), cs[i]? = some c → ∀ e : Entry ν, (∃ l, outs[i]? = some l ∧ e ∈ l) →
      e.step = c.unit ∧ enabled.has c.label = true ∧ ∀ d, Earlier enabled cs i c d → d.unit < c.unit := by
    intro i c hc e ⟨l, hl, he⟩
    rcases hw i c hc with ⟨-, h1⟩ | ⟨h1, last, -, ⟨-, h2, h3⟩ | ⟨-, h3⟩⟩
    · rw [h1] at hl; injection hl with hl; subst hl; cases he
    · rw [h3] at hl; injection hl with hl; subst hl
      exact ⟨hstep c e he, h1, h2⟩
    · rw [h3] at hl; injection hl with hl; subst hl; cases he
  obtain ⟨e1, e2, -⟩ := one i c hc e he
  obtain ⟨f1, -, f3⟩ := one j d hd f hf
  have := f3 c ⟨i, hij, hc, hn, e2⟩
  exact ⟨by omega, e1, f1⟩

/-- C97: nothing is written for a label which is not asked for, whether registered or not; the others have to be registered. -/
theorem labels (enabled : Labels) (counters : Counters) (label : String) (name : Name) (values : List ν) (step : String)
    (hs : step = "timesteps" ∨ step = "episodes" ∨ step = "updates") (m : Module ν) :
    (enabled.has label = false → summary enabled counters label name values step m = .ok (m, [])) ∧
    (enabled.has label = true → m.steps.lookup name.head = none → summary enabled counters label name values step m = .error .notRegistered) := by
  have hu : ∃ u, counters.unit step = some u := by
    rcases hs with rfl | rfl | rfl <;> exact ⟨_, rfl⟩
  obtain ⟨u, hu⟩ := hu
  constructor
  · intro h; rw [summary, hu, h]; rfl
  · intro h hn
    rw [summary, hu, h, hn]
    rfl

/-- C97: without summarizer no label is asked for, without labels all are, and otherwise those given; nothing is tracked by default. -/
theorem asked (label : String) (ls : List String) :
    (summariesOf none).has label = false ∧ (summariesOf (some .absent)).has label = true ∧ (summariesOf (some .all)).has label = true ∧
    ((summariesOf (some (.given ls))).has label = true ↔ label ∈ ls) ∧
    (trackingOf .absent).has label = false ∧ (trackingOf .all).has label = true ∧ ((trackingOf (.given ls)).has label = true ↔ label ∈ ls) :=
  ⟨rfl, rfl, rfl, List.contains_iff_mem, rfl, rfl, List.contains_iff_mem⟩

/-- C97: a name is registered once, and then only if the label is asked for; its first step is written. -/
theorem registered (enabled : Labels) (label : String) (name : Name) (m : Module ν) (hn : m.steps.lookup name.head = none) :
    ∃ m', registerSummary enabled label name m = .ok m' ∧ (∀ k, k ≠ name.head → m'.steps.lookup k = m.steps.lookup k) ∧
      (enabled.has label = true → m'.steps.lookup name.head = some (-1) ∧ ∀ label', registerSummary enabled label' name m' = .error .exists_) ∧
      (enabled.has label = false → m' = m) := by
  rw [registerSummary, hn]
  dsimp only [Option.isSome]
  rw [if_neg (by decide)]
  by_cases h : enabled.has label = true
  · rw [if_pos h]
    have h1 : (m.steps ++ [(name.head, -1)]).lookup name.head = some (-1) := by rw [append_lookup, hn]; dsimp only; rw [if_pos rfl]
    refine ⟨_, rfl, fun k hk => ?_, fun _ => ⟨h1, fun label' => ?_⟩, fun h' => by rw [h] at h'; cases h'⟩
    · dsimp only
      rw [append_lookup]
      cases m.steps.lookup k with
      | none => dsimp only; rw [if_neg hk]
      | some w => rfl
    · rw [registerSummary, h1]; rfl
  · rw [if_neg h]
    exact ⟨m, rfl, fun _ _ => rfl, fun h' => (h h').elim, fun _ => rfl⟩

/-- The counters after so many timesteps. -/
def at_ (t : Int) : Counters := ⟨t, 0, 0⟩

def loss (t : Int) (v : Nat) : Call Nat := ⟨"loss", ⟨"x", ["y"]⟩, [v, v + 1], "timesteps", at_ t⟩

example : (runCalls .all [loss 0 5, loss 0 6, loss 2 7] ⟨[("x", -1)], []⟩).toOption.map Prod.snd =
    some [[⟨"x", 0, 5⟩, ⟨"y", 0, 6⟩], [], [⟨"x", 2, 7⟩, ⟨"y", 2, 8⟩]] := by decide +kernel

/-- C97 is violated: after an earlier state with smaller counters is restored nothing is written until they are larger than ever. -/
theorem restored_violation : (runCalls .all [loss 8 5, loss 3 6, loss 4 7, loss 9 8] ⟨[("x", -1)], []⟩).toOption.map Prod.snd =
    some [[⟨"x", 8, 5⟩, ⟨"y", 8, 6⟩], [], [], [⟨"x", 9, 8⟩, ⟨"y", 9, 9⟩]] := by decide +kernel

/-! ### C98: tracked tensors -/

/-- C98: `tracked_tensors` returns, for exactly those names which are registered for each module, the value tracked last. Missing: it is zero if the value
was never computed (`never_violation`); names which differ only in what belongs to the module would be confused. -/
theorem tracked_partial (enabled : Labels) (mods : List (String × Module ν × List (String × String × ν) × Module ν))
    (h : ∀ p ∈ mods, runTracks enabled p.2.2.1 p.2.1 = .ok p.2.2.2)
    (hn : (mods.flatMap fun p => p.2.1.tracked.map fun q => p.1 ++ "/" ++ q.1).Nodup) (hm : ∀ p ∈ mods, (p.2.1.tracked.map Prod.fst).Nodup)
    (key : String) (v : ν) :
    (trackedTensors (mods.map fun p => (p.1, p.2.2.2))).lookup key = some v ↔
      ∃ p ∈ mods, ∃ name zeros, p.2.1.tracked.lookup name = some zeros ∧ key = p.1 ++ "/" ++ name ∧ v = (lastTracked enabled p.2.2.1 name).getD zeros := by
  have hkeys : ((mods.map fun p => (p.1, p.2.2.2)).flatMap fun p => p.2.tracked.map fun q => (p.1 ++ "/" ++ q.1, q.2)).map Prod.fst =
      mods.flatMap fun p => p.2.1.tracked.map fun q => p.1 ++ "/" ++ q.1 := by
    clear hn hm
    induction mods with
    | nil => rfl
    | cons p mods ih =>
      rw [List.map_cons, List.flatMap_cons, List.map_append, ih fun q hq => h q (List.mem_cons_of_mem _ hq), List.flatMap_cons]
      congr 1
      have := (runTracks_ok enabled _ _ _ (h p (List.mem_cons_self ..))).2
      have h2 := congrArg (List.map fun n => p.1 ++ "/" ++ n) this
      rw [List.map_map, List.map_map] at h2
      rw [List.map_map]
      exact h2
  rw [trackedTensors, foldl_insert _ [] (by rw [List.nil_append, hkeys]; exact hn), List.nil_append, ← mem_lookup (by rw [hkeys]; exact hn),
    List.mem_flatMap]
  have hm' : ∀ p ∈ mods, (p.2.2.2.tracked.map Prod.fst).Nodup := fun p hp => by
    rw [(runTracks_ok enabled _ _ _ (h p hp)).2]; exact hm p hp
  have hval : ∀ p ∈ mods, ∀ name w, p.2.2.2.tracked.lookup name = some w ↔
      ∃ zeros, p.2.1.tracked.lookup name = some zeros ∧ w = (lastTracked enabled p.2.2.1 name).getD zeros := by
    intro p hp name w
    have h1 := (runTracks_ok enabled _ _ _ (h p hp)).1 name
    have h2 := (runTracks_ok enabled _ _ _ (h p hp)).2
    have hsome : ∀ (l l' : List (String × ν)), l.map Prod.fst = l'.map Prod.fst → (l.lookup name).isSome = (l'.lookup name).isSome := by
      intro l
      induction l with
      | nil =>
        intro l' h
        cases l' with
        | nil => rfl
        | cons q l' => cases h
      | cons q l ih =>
        intro l' h
        cases l' with
        | nil => cases h
        | cons q' l' =>
          obtain ⟨n, x⟩ := q
          obtain ⟨n', x'⟩ := q'
          rw [List.map_cons, List.map_cons] at h
          injection h with e1 e2
          change n = n' at e1
          subst e1
          by_cases hk : name = n
          · subst hk; rw [lookup_cons_self, lookup_cons_self]; rfl
          · rw [lookup_cons_ne _ _ hk, lookup_cons_ne _ _ hk]; exact ih l' e2
    have h3 := hsome _ _ h2
    rw [h1] at h3 ⊢
    cases hz : p.2.1.tracked.lookup name with
    | none =>
      rw [hz] at h3
      have h3 : (lastTracked enabled p.2.2.1 name).or none = none := by
        rw [← Option.not_isSome_iff_eq_none, h3]; simp
      rw [h3]
      exact ⟨nofun, fun ⟨z, e, _⟩ => nomatch e⟩
    | some z =>
      cases lastTracked enabled p.2.2.1 name with
      | none => exact ⟨fun e => ⟨z, rfl, (Option.some.inj e).symm⟩, fun ⟨z', e, e'⟩ => by rw [e']; exact e⟩
      | some x => exact ⟨fun e => ⟨z, rfl, (Option.some.inj e).symm⟩, fun ⟨z', e, e'⟩ => by rw [e']; rfl⟩
  constructor
  · rintro ⟨q, hq, hkv⟩
    rw [List.mem_map] at hq
    obtain ⟨p, hp, rfl⟩ := hq
    rw [List.mem_map] at hkv
    obtain ⟨⟨name, w⟩, hnw, e⟩ := hkv
    obtain ⟨e1, e2⟩ := Prod.mk.inj e
    dsimp only at e1 e2 hnw
    rw [mem_lookup (hm' p hp), hval p hp] at hnw
    obtain ⟨z, z1, z2⟩ := hnw
    exact ⟨p, hp, name, z, z1, e1.symm, e2 ▸ z2⟩
  · rintro ⟨p, hp, name, z, z1, z2, z3⟩
    refine ⟨(p.1, p.2.2.2), List.mem_map.mpr ⟨p, hp, rfl⟩, List.mem_map.mpr ⟨(name, v), ?_, by rw [z2]⟩⟩
    exact (mem_lookup (hm' p hp)).mpr ((hval p hp name v).mpr ⟨z, z1, z3⟩)

/-- C98: a tensor is tracked only if its label is asked for, and has to be registered then; a name is registered once. -/
theorem tracked_labels (enabled : Labels) (label name : String) (v zeros : ν) (m : Module ν) :
    (enabled.has label = false → track enabled label name v m = .ok m) ∧
    (enabled.has label = true → m.tracked.lookup name = none → track enabled label name v m = .error .notRegistered) ∧
    (m.tracked.lookup name = none → enabled.has label = false → registerTracking enabled label name zeros m = .ok m) ∧
    (m.tracked.lookup name = none → enabled.has label = true → ∃ m', registerTracking enabled label name zeros m = .ok m' ∧
      m'.tracked.lookup name = some zeros ∧ m'.tracked.map Prod.fst = m.tracked.map Prod.fst ++ [name]) ∧
    ((m.tracked.lookup name).isSome = true → registerTracking enabled label name zeros m = .error .exists_) := by
  refine ⟨fun h => by rw [track, h]; rfl, fun h hn => by rw [track, h, hn]; rfl, fun hn h => ?_, fun hn h => ?_, fun hs => by rw [registerTracking, if_pos hs]⟩
  · rw [registerTracking, hn, h]; rfl
  · rw [registerTracking, hn, h]
    dsimp only [Option.isSome]
    rw [if_neg (by decide), if_pos rfl]
    refine ⟨_, rfl, ?_, by rw [List.map_append]; rfl⟩
    dsimp only
    rw [append_lookup, hn]
    dsimp only
    rw [if_pos rfl]

example : trackedTensors [("agent", (⟨[], [("loss", 7)]⟩ : Module Nat)), ("agent/policy", ⟨[], [("mean", 1), ("stddev", 2)]⟩)] =
    [("agent/loss", 7), ("agent/policy/mean", 1), ("agent/policy/stddev", 2)] := by decide +kernel

/-! ### C99: names -/

/-- C99: whatever the configuration, registering all names raises no exception, if actions have different names, and every tracked name is registered. -/
theorem tracking_registered (c : Config) (ha : c.actions.Nodup) (enabled : Labels) (zeros : ν) :
    ∃ m, registerTrackings enabled zeros c.registeredTracking ⟨[], []⟩ = .ok m ∧
      ∀ p ∈ c.usedTracking, ∀ v, ∃ m', track enabled p.1 p.2 v m = .ok m' := by
  obtain ⟨m, h1, h2⟩ := registerTrackings_ok enabled zeros c.registeredTracking ⟨[], []⟩ (registeredTracking_nodup c ha) (fun _ _ => rfl)
  refine ⟨m, h1, fun p hp v => ?_⟩
  rw [track]
  split
  · rename_i he
    rw [h2 p (usedTracking_subset c p hp) he]
    exact ⟨_, rfl⟩
  · exact ⟨_, rfl⟩

/-- C99: the same for summaries, unless the advantage is estimated within the loss. Missing: that case, see `advantage_violation`. -/
theorem summaries_registered_partial (c : Config) (enabled : Labels) (hadv : c.estimateAdvantage = false ∨ c.advantageInLoss = false ∨ enabled.has "reward" = false) :
    ∃ m : Module ν, registerSummaries enabled c.registeredSummaries ⟨[], []⟩ = .ok m ∧
      ∀ p ∈ c.usedSummaries, ∀ counters values, ∃ r, summary enabled counters p.1 ⟨p.2, []⟩ values "updates" m = .ok r := by
  obtain ⟨m, h1, h2, -⟩ := registerSummaries_ok (ν := ν) enabled c.registeredSummaries ⟨[], []⟩ (registeredSummaries_nodup c) (fun _ _ => rfl)
  refine ⟨m, h1, fun p hp counters values => ?_⟩
  have hu : counters.unit "updates" = some counters.updates := rfl
  rw [summary, hu]
  dsimp only
  split
  · rename_i he
    have hreg : p ∈ c.registeredSummaries := by
      rcases usedSummaries_cases c p hp with h | ⟨h, h3, h4⟩
      · exact h
      · rcases hadv with h' | h' | h'
        · rw [h'] at h3; cases h3
        · rw [h'] at h4; cases h4
        · rw [h, h'] at he; cases he
    rw [h2 p hreg he]
    dsimp only
    split
    · exact ⟨_, rfl⟩
    · exact ⟨_, rfl⟩
  · exact ⟨_, rfl⟩

/-- C99 is violated: whenever the advantage is estimated within the loss and the label "reward" is asked for, as it is by default, the summary of the advantage
is not registered, and computing the loss raises an exception. -/
theorem advantage_violation (c : Config) (h1 : c.estimateAdvantage = true) (h2 : c.advantageInLoss = true) (enabled : Labels) (h3 : enabled.has "reward" = true) :
    ("reward", "update-advantage") ∈ c.usedSummaries ∧
    ∃ m : Module ν, registerSummaries enabled c.registeredSummaries ⟨[], []⟩ = .ok m ∧
      ∀ counters values, summary enabled counters "reward" ⟨"update-advantage", []⟩ values "updates" m = .error .notRegistered := by
  constructor
  · rw [Config.usedSummaries, h1, h2]
    exact List.mem_append_right _ (List.mem_append_left _ (List.mem_cons_self ..))
  · obtain ⟨m, g1, -, g3⟩ := registerSummaries_ok (ν := ν) enabled c.registeredSummaries ⟨[], []⟩ (registeredSummaries_nodup c) (fun _ _ => rfl)
    refine ⟨m, g1, fun counters values => ?_⟩
    have hn : m.steps.lookup "update-advantage" = none := g3 _ (registeredSummaries_advantage c)
    exact (labels enabled counters "reward" ⟨"update-advantage", []⟩ values "updates" (Or.inr (Or.inr rfl)) m).2 h3 hn

example : ∃ c : Config, c.estimateAdvantage = true ∧ c.advantageInLoss = true ∧ (summariesOf (some .absent)).has "reward" = true :=
  ⟨⟨true, false, true, false, false, true, false, true, false, true, ["a", "b"]⟩, rfl, rfl, rfl⟩

example : ∃ c : Config, c.actions.Nodup ∧ c.stochastic = false ∧ c.estimateAdvantage = false ∧ (summariesOf (some .absent)).has "entropy" = true :=
  ⟨⟨true, false, true, false, false, false, false, true, false, false, ["a", "b"]⟩, by decide, rfl, rfl, rfl⟩

/-- C98 is violated: a registered tensor need not be computed ever; the entropy of a policy which is not stochastic, like that of a DQN agent, is
registered and always zero. -/
theorem never_violation (c : Config) (ha : c.actions.Nodup) (hs : c.stochastic = false) (enabled : Labels) (he : enabled.has "entropy" = true) (zeros : ν) :
    ∃ m, registerTrackings enabled zeros c.registeredTracking ⟨[], []⟩ = .ok m ∧
      ∀ ts : List (String × String × ν), (∀ t ∈ ts, (t.1, t.2.1) ∈ c.usedTracking) → ∀ m', runTracks enabled ts m = .ok m' → m'.tracked.lookup "entropy" = some zeros := by
  obtain ⟨m, h1, h2⟩ := registerTrackings_ok enabled zeros c.registeredTracking ⟨[], []⟩ (registeredTracking_nodup c ha) (fun _ _ => rfl)
  refine ⟨m, h1, fun ts hts m' hm => ?_⟩
  have hmem : ("entropy", "entropy") ∈ c.registeredTracking := by
    rw [Config.registeredTracking]
    exact List.mem_append_left _ (List.mem_append_right _ (List.mem_cons_self ..))
  rw [(runTracks_ok enabled ts m m' hm).1, h2 _ hmem he, lastTracked, List.filter_eq_nil_iff.mpr]
  · rfl
  · intro t ht h
    rw [Bool.and_eq_true, decide_eq_true_iff] at h
    exact usedTracking_entropy c hs _ (hts t ht) h.2

/-! ### C100: directories -/

/-- What is a directory of a summary with a generic name. -/
def Generic (i : Item) : Prop := i.isDir = true ∧ "summary-".toList <+: i.name.toList

instance (i : Item) : Decidable (Generic i) := by unfold Generic; infer_instance

/-- C100: without file name, exactly as many summaries are removed as necessary for `max_summaries` with the new one, those whose names come first, if each of
them has one file, and everything else stays; otherwise an exception is raised. Missing: see `named_violation` and `files_violation`. -/
theorem rotate_partial (items : List Item) (hn : (items.map Item.name).Nodup) (max : Nat) (hmax : 1 ≤ max) :
    ∃ removed : List String, removed.Nodup ∧ removed.length = (items.filter (Generic ·)).length - (max - 1) ∧
      (∀ n ∈ removed, ∃ i ∈ items, Generic i ∧ i.name = n) ∧
      (∀ n ∈ removed, ∀ i ∈ items, Generic i → i.name ∉ removed → n ≤ i.name) ∧
      ((rotate none (some max) items).2 = none ↔ ∀ i ∈ items, i.name ∈ removed → i.files = 1) ∧
      ((rotate none (some max) items).2 = none → (rotate none (some max) items).1 = items.filter fun i => i.name ∉ removed) := by
  have hlen : (directories items).length = (items.filter (Generic ·)).length := by
    rw [directories, (sortNames_perm _).length_eq, List.length_map]
    congr 1
    apply List.filter_congr
    intro i _
    rw [Bool.eq_iff_iff, Bool.and_eq_true, decide_eq_true_iff, generic, List.isPrefixOf_iff_prefix, Generic]
  have hnd := directories_nodup items hn
  have hmem := mem_directories items
  have hsorted : (directories items).Pairwise (· ≤ ·) := sortNames_sorted _
  generalize hds : directories items = ds at *
  refine ⟨ds.take (ds.length - (max - 1)), hnd.sublist (List.take_sublist ..), ?_, ?_, ?_, ?_⟩
  · rw [List.length_take, hlen]; omega
  · intro n hm
    obtain ⟨i, h1, h2, h3, h4⟩ := (hmem n).mp (List.mem_of_mem_take hm)
    exact ⟨i, h1, ⟨h2, List.isPrefixOf_iff_prefix.mp h3⟩, h4⟩
  · intro n hm i hi hg hni
    have hid : i.name ∈ ds := (hmem _).mpr ⟨i, hi, hg.1, List.isPrefixOf_iff_prefix.mpr hg.2, rfl⟩
    rw [← List.take_append_drop (ds.length - (max - 1)) ds, List.mem_append] at hid
    have hid := hid.resolve_left hni
    rw [← List.take_append_drop (ds.length - (max - 1)) ds, List.pairwise_append] at hsorted
    exact hsorted.2.2 n hm _ hid
  · have hrot : rotate none (some max) items = removeDirs (ds.take (ds.length - (max - 1))) items := by
      rw [rotate]
      dsimp only [Option.getD]
      rw [hds]
      split
      · rename_i h
        rw [sliceTo, if_pos (by omega)]
        congr 2
        omega
      · rename_i h
        rw [show ds.length - (max - 1) = 0 by omega]
        rfl
    rw [hrot]
    exact removeDirs_ok _ items hn (hnd.sublist (List.take_sublist ..)) (fun n hm => by
      obtain ⟨i, h1, -, -, h4⟩ := (hmem n).mp (List.mem_of_mem_take hm)
      exact ⟨i, h1, h4⟩)

example : ([⟨"summary-1", true, 1⟩, ⟨"summary-2", true, 1⟩, ⟨"other", true, 3⟩] : List Item).map Item.name |>.Nodup := by decide

/-- C100: with a file name nothing is removed; the default is 7. -/
theorem given_name (filename : String) (max : Option Int) (time : Time) (items : List Item) :
    rotate (some filename) max items = (items, none) ∧ logdir (some filename) time = filename ∧ logdir none time = time.format ∧
    rotate none none items = rotate none (some 7) items := ⟨rfl, rfl, rfl, rfl⟩

/-- A time with two digits each, and four of the year. -/
def Valid (t : Time) : Prop := t.year < 10000 ∧ t.month < 100 ∧ t.day < 100 ∧ t.hour < 100 ∧ t.minute < 100 ∧ t.second < 100

/-- A time before another. -/
def Before (t t' : Time) : Prop :=
  t.year < t'.year ∨ (t.year = t'.year ∧ (t.month < t'.month ∨ (t.month = t'.month ∧ (t.day < t'.day ∨ (t.day = t'.day ∧ (t.hour < t'.hour ∨
    (t.hour = t'.hour ∧ (t.minute < t'.minute ∨ (t.minute = t'.minute ∧ t.second < t'.second)))))))))

/-- C100: the names of summaries are ordered like the times when they were created, and start with "summary-". -/
theorem oldest_first (t t' : Time) (h : Valid t) (h' : Valid t') : (t.format < t'.format ↔ Before t t') ∧ "summary-".toList <+: t.format.toList := by
  obtain ⟨h1, h2, h3, h4, h5, h6⟩ := h
  obtain ⟨g1, g2, g3, g4, g5, g6⟩ := h'
  constructor
  · rw [String.lt_iff, format_toList, format_toList, prefix_lt, pad_lt 4 _ _ _ _ h1 g1, pad_lt 2 _ _ _ _ h2 g2, pad_lt 2 _ _ _ _ h3 g3, hyphen_lt,
      pad_lt 2 _ _ _ _ h4 g4, pad_lt 2 _ _ _ _ h5 g5, pad_lt_end 2 _ _ h6 g6, Before]
  · rw [format_toList]
    exact List.prefix_append _ _

example : Valid ⟨2026, 11, 17, 9, 30, 0⟩ := ⟨by decide, by decide, by decide, by decide, by decide, by decide⟩

/-- C100 is violated: a summary whose file name was given counts and is removed if its name starts like the generic ones. -/
theorem named_violation : rotate none (some 2) [⟨"summary-0-best", true, 1⟩, ⟨"summary-20261117-093000", true, 1⟩, ⟨"other", true, 3⟩] =
    ([⟨"summary-20261117-093000", true, 1⟩, ⟨"other", true, 3⟩], none) := by decide +kernel

/-- C100 is violated: if a summary to be removed has no file or several files, the agent cannot be created, and a file is lost nevertheless. -/
theorem files_violation : rotate none (some 1) [⟨"summary-20261117-093000", true, 2⟩] = ([⟨"summary-20261117-093000", true, 1⟩], some .os) ∧
    rotate none (some 1) [⟨"summary-20261117-093000", true, 0⟩] = ([⟨"summary-20261117-093000", true, 0⟩], some .index) := by decide +kernel

end Verif.Props.Summary
