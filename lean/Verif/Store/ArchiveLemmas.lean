import Verif.Store.Archive
import Verif.Memory.Model

/-! # Lemmas about name-indexed archives -/

namespace Verif.Store

variable {V : Type}

def keys (model : Name) (names : List Name) : List Name := names.map (keyOf model)

theorem insert_new {key : Name} {v : V} {a : Vars V} (h : key ∉ a.map Prod.fst) : insert key v a = a ++ [(key, v)] := by
  induction a with
  | nil => rfl
  | cons e a ih =>
    obtain ⟨k, w⟩ := e
    simp only [List.map_cons, List.mem_cons, not_or] at h
    rw [insert, if_neg fun e => h.1 e.symm, ih h.2]; rfl

theorem lookup_insert (key k : Name) (v : V) (a : Vars V) : (insert key v a).lookup k = if k = key then some v else a.lookup k := by
  induction a with
  | nil => simp [insert, List.lookup_cons]; split <;> simp_all
  | cons e a ih =>
    obtain ⟨k', w⟩ := e
    rw [insert]
    split
    · rename_i h
      subst h
      rw [List.lookup_cons, List.lookup_cons]
      split <;> simp_all
    · rename_i h
      rw [List.lookup_cons, List.lookup_cons, ih]
      split <;> split <;> simp_all

theorem mem_insert_keys {key k : Name} {v : V} {a : Vars V} (h : k ∈ (insert key v a).map Prod.fst) : k = key ∨ k ∈ a.map Prod.fst := by
  induction a with
  | nil => simpa [insert] using h
  | cons e a ih =>
    obtain ⟨k', w⟩ := e
    rw [insert] at h
    split at h
    · right; simpa using h
    · simp only [List.map_cons, List.mem_cons] at h ⊢
      rcases h with h | h
      · exact .inr (.inl h)
      · exact (ih h).imp id .inr

theorem collect_ok {model : Name} {vars a : Vars V} (hw : ∀ n ∈ vars.map Prod.fst, wellNamed n = true) :
    ∃ a', collect model vars a = .ok a' ∧ ∀ k, k ∈ a'.map Prod.fst → k ∈ a.map Prod.fst ∨ k ∈ keys model (vars.map Prod.fst) := by
  induction vars generalizing a with
  | nil => exact ⟨a, rfl, fun _ h => .inl h⟩
  | cons e vars ih =>
    obtain ⟨n, v⟩ := e
    obtain ⟨a', h1, h2⟩ := ih (a := insert (keyOf model n) v a) fun m hm => hw m (by simp [hm])
    refine ⟨a', by rw [collect, if_pos (hw n (by simp))]; exact h1, fun k hk => ?_⟩
    rcases h2 k hk with h | h
    · rcases mem_insert_keys h with rfl | h
      · right; simp [keys]
      · exact .inl h
    · right; simp only [keys, List.map_cons, List.mem_cons]; exact .inr h

/-- The value of the last variable with this key. -/
def lastWith (model : Name) (vars : Vars V) (key : Name) : Option V := (vars.reverse.find? fun e => keyOf model e.1 = key).map Prod.snd

theorem collect_lookup {model : Name} {vars a a' : Vars V} (h : collect model vars a = .ok a') (k : Name) :
    a'.lookup k = (lastWith model vars k).or (a.lookup k) := by
  induction vars generalizing a with
  | nil => cases h; simp [lastWith]
  | cons e vars ih =>
    obtain ⟨n, v⟩ := e
    rw [collect] at h
    split at h
    · rw [ih h, lookup_insert]
      simp only [lastWith, List.reverse_cons, List.find?_append]
      cases hf : vars.reverse.find? (fun e => decide (keyOf model e.1 = k)) with
      | some e => simp
      | none =>
        by_cases hk : keyOf model n = k
        · simp [hk]
        · simp [hk]
          exact fun e => absurd e.symm hk
    · cases h

theorem lastWith_nodup {model : Name} {vars : Vars V} (hd : (keys model (vars.map Prod.fst)).Nodup) {n : Name} {v : V} (h : (n, v) ∈ vars) :
    lastWith model vars (keyOf model n) = some v := by
  induction vars with
  | nil => simp at h
  | cons e vars ih =>
    simp only [keys, List.map_cons, List.nodup_cons] at hd
    simp only [lastWith, List.reverse_cons, List.find?_append]
    rcases List.mem_cons.mp h with rfl | h
    · have hnone : vars.reverse.find? (fun e => decide (keyOf model e.1 = keyOf model n)) = none := by
        rw [List.find?_eq_none]
        intro e he hk
        refine hd.1 (List.mem_map.mpr ⟨e.1, List.mem_map.mpr ⟨e, by simpa using he, rfl⟩, of_decide_eq_true hk⟩)
      rw [hnone]
      simp
    · have := ih hd.2 h
      unfold lastWith at this
      cases hf : vars.reverse.find? (fun e => decide (keyOf model e.1 = keyOf model n)) with
      | some e => rw [hf] at this; simpa using this
      | none => rw [hf] at this; simp at this

theorem assignAll_ok {model : Name} {read : Name → Option V} {names : List Name} {vs : List V} (hw : ∀ n ∈ names, wellNamed n = true)
    (hr : (keys model names).map read = vs.map some) : assignAll model read names = .ok vs := by
  induction names generalizing vs with
  | nil => cases vs with
    | nil => rfl
    | cons v vs => simp [keys] at hr
  | cons n names ih => cases vs with
    | nil => simp [keys] at hr
    | cons v vs =>
      simp only [keys, List.map_cons, List.cons.injEq] at hr
      rw [assignAll, if_pos (hw n (by simp)), hr.1, ih (fun m hm => hw m (by simp [hm])) hr.2]

theorem assignAll_inv {model : Name} {read : Name → Option V} {names : List Name} {vs : List V} (h : assignAll model read names = .ok vs) :
    (keys model names).map read = vs.map some := by
  induction names generalizing vs with
  | nil => cases h; rfl
  | cons n names ih =>
    rw [assignAll] at h
    split at h
    · split at h
      · rename_i v vs' hv hvs
        cases h
        simp only [keys, List.map_cons, hv]
        rw [show List.map read (List.map (keyOf model) names) = _ from ih hvs]
      · cases h
      · cases h
    · cases h

/-! ## HDF5 -/

/-- No path is a beginning of another one or empty. -/
def Disjoint (paths : List (List Name)) : Prop := (∀ p ∈ paths, p ≠ []) ∧ paths.Pairwise fun p q => ¬ p <+: q ∧ ¬ q <+: p

theorem create_ok {p : List Name} {v : V} {a : List (List Name × V)} (h0 : p ≠ []) (h : ∀ q ∈ a.map Prod.fst, ¬ q <+: p ∧ ¬ p <+: q) :
    create p v a = .ok (a ++ [(p, v)]) := by
  rw [create, if_neg]
  rintro (h1 | ⟨q, hq, h1 | h1⟩)
  · exact h0 h1
  · exact (h q hq).1 h1
  · exact (h q hq).2 h1

theorem create_inv {p : List Name} {v : V} {a a' : List (List Name × V)} (h : create p v a = .ok a') :
    p ≠ [] ∧ (∀ q ∈ a.map Prod.fst, ¬ q <+: p ∧ ¬ p <+: q) ∧ a' = a ++ [(p, v)] := by
  unfold create at h
  split at h
  · cases h
  · rename_i hn
    cases h
    exact ⟨fun e => hn (.inl e), fun q hq => ⟨fun e => hn (.inr ⟨q, hq, .inl e⟩), fun e => hn (.inr ⟨q, hq, .inr e⟩)⟩, rfl⟩

def paths (model : Name) (names : List Name) : List (List Name) := (keys model names).map path

theorem saveHdf5_ok {model : Name} {vars : Vars V} {a : List (List Name × V)} (hw : ∀ n ∈ vars.map Prod.fst, wellNamed n = true)
    (hd : Disjoint (a.map Prod.fst ++ paths model (vars.map Prod.fst))) :
    saveHdf5 model vars a = .ok (a ++ (vars.map fun e => (path (keyOf model e.1), e.2))) := by
  induction vars generalizing a with
  | nil => simp [saveHdf5]
  | cons e vars ih =>
    obtain ⟨n, v⟩ := e
    have hp := hd.2
    rw [List.pairwise_append] at hp
    rw [saveHdf5, if_pos (hw n (by simp)), create_ok (hd.1 _ (by simp [paths, keys])) fun q hq => hp.2.2 q hq _ (by simp [paths, keys])]
    refine (ih (fun m hm => hw m (by simp [hm])) ?_).trans (by simp)
    simpa [paths, keys] using hd

theorem saveHdf5_inv {model : Name} {vars : Vars V} {a a' : List (List Name × V)} (h : saveHdf5 model vars a = .ok a') (hd : Disjoint (a.map Prod.fst)) :
    Disjoint (a.map Prod.fst ++ paths model (vars.map Prod.fst)) := by
  induction vars generalizing a with
  | nil => simpa [paths, keys] using hd
  | cons e vars ih =>
    obtain ⟨n, v⟩ := e
    rw [saveHdf5] at h
    split at h
    · split at h
      · cases h
      · rename_i a1 ha1
        obtain ⟨h1, h2, rfl⟩ := create_inv ha1
        have := ih h (by
          refine ⟨fun p hp => ?_, ?_⟩
          · simp only [List.map_append, List.map_cons, List.map_nil, List.mem_append, List.mem_singleton] at hp
            rcases hp with hp | rfl
            · exact hd.1 p hp
            · exact h1
          · simp only [List.map_append, List.map_cons, List.map_nil]
            rw [List.pairwise_append]
            refine ⟨hd.2, by simp, fun q hq p hp => ?_⟩
            rw [List.mem_singleton.mp hp]
            exact h2 q hq)
        simpa [paths, keys] using this
    · cases h

theorem lookup_disjoint {a : List (List Name × V)} (hd : Disjoint (a.map Prod.fst)) {p : List Name} {v : V} (h : (p, v) ∈ a) : a.lookup p = some v := by
  induction a with
  | nil => simp at h
  | cons e a ih =>
    obtain ⟨q, w⟩ := e
    have hp := hd.2
    rw [List.map_cons, List.pairwise_cons] at hp
    rcases List.mem_cons.mp h with h | h'
    · cases h; simp
    · have hne : p ≠ q := by
        rintro rfl
        exact (hp.1 p (List.mem_map.mpr ⟨(p, v), h', rfl⟩)).1 (List.prefix_refl _)
      rw [List.lookup_cons, show (p == q) = false by simp [hne]]
      exact ih ⟨fun r hr => hd.1 r (by simp only [List.map_cons, List.mem_cons]; exact .inr hr), hp.2⟩ h'

end Verif.Store
