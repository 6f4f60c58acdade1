import Verif.Utils.NestedSpec

/-!
# Helper lemmas for nested dictionaries
-/

namespace Verif.Utils.Nested

variable {V W : Type}

theorem look_fresh (p : List String) (u t : Tree V) (h : fresh p u = some t) (q : List String) :
    look t q = putAt p u (fun _ => none) q := by
  induction p generalizing t q with
  | nil => simp only [fresh, Option.some.injEq] at h; subst h; simp [putAt, behind]
  | cons k p ih =>
    simp only [fresh] at h
    split at h
    · simp at h
    · rw [Option.map_eq_some_iff] at h
      obtain ⟨t', h', rfl⟩ := h
      cases q with
      | nil => simp [look, putAt, behind]
      | cons k' q =>
        simp only [look, lookE, putAt, behind]
        have := ih t' h' q
        split
        · rw [this]; rfl
        · rfl

mutual
theorem look_set (ow : Bool) (t : Tree V) (p : List String) (u t' : Tree V) (h : t.set ow p u = some t')
    (q : List String) : look t' q = putAt p u (look t) q := by
  match t with
  | .leaf _ => simp [Tree.set] at h
  | .sing s =>
    match p with
    | [] => simp only [Tree.set, Option.some.injEq] at h; subst h; simp [look, putAt, behind]
    | k :: p =>
      simp only [Tree.set, Option.map_eq_some_iff] at h
      obtain ⟨s', h', rfl⟩ := h
      simp only [look, putAt]
      rw [look_set ow s (k :: p) u s' h' q]
      rfl
  | .node es =>
    match p with
    | [] =>
      match es with
      | .nil => simp only [Tree.set, Option.some.injEq] at h; subst h; simp [look, putAt, behind]
      | .cons .. => simp [Tree.set] at h
    | k :: p =>
      simp only [Tree.set] at h
      split at h
      · simp at h
      · rw [Option.map_eq_some_iff] at h
        obtain ⟨es', h', rfl⟩ := h
        match q with
        | [] => simp [look, putAt, behind]
        | k' :: q =>
          simp only [look]
          rw [look_setE ow es k p u es' h' k' q]
          by_cases hk : k = k' <;> simp [putAt, behind, look, hk]

theorem look_setE (ow : Bool) (es : Entries V) (k : String) (p : List String) (u : Tree V) (es' : Entries V)
    (h : es.set ow k p u = some es') (k' : String) (q : List String) :
    lookE es' k' q = if k = k' then putAt p u (fun q => lookE es k' q) q else lookE es k' q := by
  match es with
  | .nil =>
    simp only [Entries.set, Option.map_eq_some_iff] at h
    obtain ⟨t, h', rfl⟩ := h
    simp only [lookE]
    rw [look_fresh p u t h' q]
  | .cons j t es =>
    simp only [Entries.set] at h
    split at h
    · rename_i hj
      subst hj
      split at h
      · rename_i hp
        subst hp
        split at h
        · simp only [Option.some.injEq] at h
          subst h
          simp only [lookE, putAt, behind]
          split <;> rfl
        · simp at h
      · rw [Option.map_eq_some_iff] at h
        obtain ⟨t', h', rfl⟩ := h
        simp only [lookE]
        split
        · rename_i hk
          subst hk
          rw [look_set ow t p u t' h' q]
        · rfl
    · rename_i hj
      rw [Option.map_eq_some_iff] at h
      obtain ⟨es'', h', rfl⟩ := h
      simp only [lookE]
      rw [look_setE ow es k p u es'' h' k' q]
      by_cases hk : k = k'
      · subst hk; simp [hj]
      · simp [hk]
end

theorem lookE_none (es : Entries V) (k : String) (h : es.find k = none) (q : List String) : lookE es k q = none := by
  match es with
  | .nil => rfl
  | .cons j t es =>
    simp only [Entries.find] at h
    split at h
    · simp at h
    · rename_i hj
      simp only [lookE, hj, if_false]
      exact lookE_none es k h q

mutual
theorem look_pop (t : Tree V) (hw : Wf t) (p : List String) (t' : Tree V) (h : t.pop p = some t')
    (q : List String) : look t' q = removeAt p (look t) q := by
  match t with
  | .leaf _ => simp [Tree.pop] at h
  | .sing s =>
    match p with
    | [] => simp only [Tree.pop, Option.some.injEq] at h; subst h; cases q <;> simp [look, lookE, removeAt, behind]
    | k :: p =>
      match s with
      | .leaf v =>
        simp only [Tree.pop, Option.some.injEq] at h
        subst h
        cases q with
        | nil => simp [removeAt, behind]
        | cons k' q => simp only [look, removeAt, reduceCtorEq, if_false]; cases behind (k :: p) (k' :: q) <;> rfl
      | .sing s =>
        simp only [Tree.pop, Option.map_eq_some_iff] at h
        obtain ⟨s', h', rfl⟩ := h
        simp only [look, removeAt]
        rw [look_pop (.sing s) hw (k :: p) s' h' q]
        simp [removeAt, look]
      | .node es =>
        rw [Tree.pop, Option.map_eq_some_iff] at h
        · obtain ⟨s', h', rfl⟩ := h
          have := look_pop (.node es) hw (k :: p) s' h' q
          simp only [look, removeAt] at this ⊢
          exact this
        · simp
        · simp
  | .node es =>
    match p with
    | [] =>
      match es with
      | .nil => simp only [Tree.pop, Option.some.injEq] at h; subst h; cases q <;> simp [look, lookE, removeAt, behind]
      | .cons .. => simp [Tree.pop] at h
    | k :: p =>
      simp only [Tree.pop, Option.map_eq_some_iff] at h
      obtain ⟨es', h', rfl⟩ := h
      match q with
      | [] => simp [look, removeAt, behind]
      | k' :: q =>
        simp only [look]
        rw [look_popE es hw k p es' h' k' q]
        by_cases hk : k = k' <;> simp [removeAt, behind, look, hk]

theorem look_popE (es : Entries V) (hw : WfE es) (k : String) (p : List String) (es' : Entries V)
    (h : es.pop k p = some es') (k' : String) (q : List String) :
    lookE es' k' q = if k = k' then removeAt p (fun q => lookE es k' q) q else lookE es k' q := by
  match es with
  | .nil =>
    simp only [Entries.pop, Option.some.injEq] at h
    subst h
    simp only [lookE, removeAt]
    split
    · split <;> rfl
    · rfl
  | .cons j t es =>
    obtain ⟨hw1, hw2, hw3⟩ := hw
    simp only [Entries.pop] at h
    split at h
    · rename_i hj
      subst hj
      split at h
      · rename_i hp
        subst hp
        simp only [Option.some.injEq] at h
        subst h
        simp only [lookE, removeAt, behind]
        split
        · rename_i hk
          subst hk
          exact lookE_none _ _ hw2 q
        · rfl
      · rw [Option.map_eq_some_iff] at h
        obtain ⟨t', h', rfl⟩ := h
        simp only [lookE]
        split
        · rename_i hk
          subst hk
          rw [look_pop t hw1 p t' h' q]
        · rfl
    · rename_i hj
      rw [Option.map_eq_some_iff] at h
      obtain ⟨es'', h', rfl⟩ := h
      simp only [lookE]
      rw [look_popE es hw3 k p es'' h' k' q]
      by_cases hk : k = k'
      · subst hk; simp [hj]
      · simp [hk]
end

theorem wf_fresh (p : List String) (u t : Tree V) (hu : Wf u) (h : fresh p u = some t) : Wf t := by
  induction p generalizing t with
  | nil => simp only [fresh, Option.some.injEq] at h; subst h; exact hu
  | cons k p ih =>
    simp only [fresh] at h
    split at h
    · simp at h
    · rw [Option.map_eq_some_iff] at h
      obtain ⟨t', h', rfl⟩ := h
      exact ⟨ih t' h', rfl, trivial⟩

theorem find_setE (ow : Bool) (es : Entries V) (k : String) (p : List String) (u : Tree V) (es' : Entries V)
    (h : es.set ow k p u = some es') (j : String) (hj : j ≠ k) (hn : es.find j = none) : es'.find j = none := by
  match es with
  | .nil =>
    simp only [Entries.set, Option.map_eq_some_iff] at h
    obtain ⟨t, _, rfl⟩ := h
    simp [Entries.find, Ne.symm hj]
  | .cons i t es =>
    simp only [Entries.find] at hn
    split at hn
    · simp at hn
    · rename_i hi
      simp only [Entries.set] at h
      split at h
      · split at h
        · split at h
          · simp only [Option.some.injEq] at h; subst h; simpa [Entries.find, hi] using hn
          · simp at h
        · rw [Option.map_eq_some_iff] at h
          obtain ⟨t', _, rfl⟩ := h
          simpa [Entries.find, hi] using hn
      · rw [Option.map_eq_some_iff] at h
        obtain ⟨es'', h', rfl⟩ := h
        simpa [Entries.find, hi] using find_setE ow es k p u es'' h' j hj hn

theorem find_popE (es : Entries V) (k : String) (p : List String) (es' : Entries V)
    (h : es.pop k p = some es') (j : String) (hn : es.find j = none) : es'.find j = none := by
  match es with
  | .nil => simp only [Entries.pop, Option.some.injEq] at h; subst h; rfl
  | .cons i t es =>
    simp only [Entries.find] at hn
    split at hn
    · simp at hn
    · rename_i hi
      simp only [Entries.pop] at h
      split at h
      · split at h
        · simp only [Option.some.injEq] at h; subst h; exact hn
        · rw [Option.map_eq_some_iff] at h
          obtain ⟨t', _, rfl⟩ := h
          simpa [Entries.find, hi] using hn
      · rw [Option.map_eq_some_iff] at h
        obtain ⟨es'', h', rfl⟩ := h
        simpa [Entries.find, hi] using find_popE es k p es'' h' j hn

mutual
theorem wf_set (ow : Bool) (t : Tree V) (p : List String) (u t' : Tree V) (hw : Wf t) (hu : Wf u)
    (h : t.set ow p u = some t') : Wf t' := by
  match t with
  | .leaf _ => simp [Tree.set] at h
  | .sing s =>
    match p with
    | [] => simp only [Tree.set, Option.some.injEq] at h; subst h; exact hu
    | k :: p =>
      simp only [Tree.set, Option.map_eq_some_iff] at h
      obtain ⟨s', h', rfl⟩ := h
      exact wf_set ow s (k :: p) u s' hw hu h'
  | .node es =>
    match p with
    | [] =>
      match es with
      | .nil => simp only [Tree.set, Option.some.injEq] at h; subst h; exact hu
      | .cons .. => simp [Tree.set] at h
    | k :: p =>
      simp only [Tree.set] at h
      split at h
      · simp at h
      · rw [Option.map_eq_some_iff] at h
        obtain ⟨es', h', rfl⟩ := h
        exact wf_setE ow es k p u es' hw hu h'

theorem wf_setE (ow : Bool) (es : Entries V) (k : String) (p : List String) (u : Tree V) (es' : Entries V)
    (hw : WfE es) (hu : Wf u) (h : es.set ow k p u = some es') : WfE es' := by
  match es with
  | .nil =>
    simp only [Entries.set, Option.map_eq_some_iff] at h
    obtain ⟨t, h', rfl⟩ := h
    exact ⟨wf_fresh p u t hu h', rfl, trivial⟩
  | .cons i t es =>
    obtain ⟨h1, h2, h3⟩ := hw
    simp only [Entries.set] at h
    split at h
    · split at h
      · split at h
        · simp only [Option.some.injEq] at h; subst h; exact ⟨hu, h2, h3⟩
        · simp at h
      · rw [Option.map_eq_some_iff] at h
        obtain ⟨t', h', rfl⟩ := h
        exact ⟨wf_set ow t p u t' h1 hu h', h2, h3⟩
    · rename_i hi
      rw [Option.map_eq_some_iff] at h
      obtain ⟨es'', h', rfl⟩ := h
      exact ⟨h1, find_setE ow es k p u es'' h' i hi h2, wf_setE ow es k p u es'' h3 hu h'⟩
end

mutual
theorem wf_pop (t : Tree V) (p : List String) (t' : Tree V) (hw : Wf t) (h : t.pop p = some t') : Wf t' := by
  match t with
  | .leaf _ => simp [Tree.pop] at h
  | .sing s =>
    match p with
    | [] => simp only [Tree.pop, Option.some.injEq] at h; subst h; trivial
    | k :: p =>
      match s with
      | .leaf v => simp only [Tree.pop, Option.some.injEq] at h; subst h; trivial
      | .sing s =>
        simp only [Tree.pop, Option.map_eq_some_iff] at h
        obtain ⟨s', h', rfl⟩ := h
        exact wf_pop (.sing s) (k :: p) s' hw h'
      | .node es =>
        rw [Tree.pop, Option.map_eq_some_iff] at h
        · obtain ⟨s', h', rfl⟩ := h
          exact wf_pop (.node es) (k :: p) s' hw h'
        · simp
        · simp
  | .node es =>
    match p with
    | [] =>
      match es with
      | .nil => simp only [Tree.pop, Option.some.injEq] at h; subst h; trivial
      | .cons .. => simp [Tree.pop] at h
    | k :: p =>
      simp only [Tree.pop, Option.map_eq_some_iff] at h
      obtain ⟨es', h', rfl⟩ := h
      exact wf_popE es k p es' hw h'

theorem wf_popE (es : Entries V) (k : String) (p : List String) (es' : Entries V)
    (hw : WfE es) (h : es.pop k p = some es') : WfE es' := by
  match es with
  | .nil => simp only [Entries.pop, Option.some.injEq] at h; subst h; trivial
  | .cons i t es =>
    obtain ⟨h1, h2, h3⟩ := hw
    simp only [Entries.pop] at h
    split at h
    · split at h
      · simp only [Option.some.injEq] at h; subst h; exact h3
      · rw [Option.map_eq_some_iff] at h
        obtain ⟨t', h', rfl⟩ := h
        exact ⟨wf_pop t p t' h1 h', h2, h3⟩
    · rw [Option.map_eq_some_iff] at h
      obtain ⟨es'', h', rfl⟩ := h
      exact ⟨h1, find_popE es k p es'' h' i h2, wf_popE es k p es'' h3 h'⟩
end

mutual
theorem get_set (ow : Bool) (t : Tree V) (p : List String) (u t' : Tree V) (h : t.set ow p u = some t') :
    t'.get p = some u := by
  match t with
  | .leaf _ => simp [Tree.set] at h
  | .sing s =>
    match p with
    | [] => simp only [Tree.set, Option.some.injEq] at h; subst h; simp [Tree.get]
    | k :: p =>
      simp only [Tree.set, Option.map_eq_some_iff] at h
      obtain ⟨s', h', rfl⟩ := h
      simpa [Tree.get] using get_set ow s (k :: p) u s' h'
  | .node es =>
    match p with
    | [] =>
      match es with
      | .nil => simp only [Tree.set, Option.some.injEq] at h; subst h; simp [Tree.get]
      | .cons .. => simp [Tree.set] at h
    | k :: p =>
      simp only [Tree.set] at h
      split at h
      · simp at h
      · rw [Option.map_eq_some_iff] at h
        obtain ⟨es', h', rfl⟩ := h
        simpa [Tree.get] using get_setE ow es k p u es' h'

theorem get_setE (ow : Bool) (es : Entries V) (k : String) (p : List String) (u : Tree V) (es' : Entries V)
    (h : es.set ow k p u = some es') : es'.get k p = some u := by
  match es with
  | .nil =>
    simp only [Entries.set, Option.map_eq_some_iff] at h
    obtain ⟨t, h', rfl⟩ := h
    simp only [Entries.get, if_true]
    exact get_fresh p u t h'
  | .cons i t es =>
    simp only [Entries.set] at h
    split at h
    · rename_i hi
      split at h
      · rename_i hp
        split at h
        · simp only [Option.some.injEq] at h; subst h; simp [Entries.get, hi, hp]
        · simp at h
      · rename_i hp
        rw [Option.map_eq_some_iff] at h
        obtain ⟨t', h', rfl⟩ := h
        simpa [Entries.get, hi, hp] using get_set ow t p u t' h'
    · rename_i hi
      rw [Option.map_eq_some_iff] at h
      obtain ⟨es'', h', rfl⟩ := h
      simpa [Entries.get, hi] using get_setE ow es k p u es'' h'

theorem get_fresh (p : List String) (u t : Tree V) (h : fresh p u = some t) :
    (if p = [] then some t else t.get p) = some u := by
  match p with
  | [] => simpa [fresh, eq_comm] using h
  | k :: p =>
    simp only [fresh] at h
    split at h
    · simp at h
    · rw [Option.map_eq_some_iff] at h
      obtain ⟨t', h', rfl⟩ := h
      simpa [Tree.get, Entries.get] using get_fresh p u t' h'
end

mutual
theorem has_iff (t : Tree V) (p : List String) : t.has p = some true ↔ (t.get p).isSome = true := by
  match t with
  | .leaf _ => simp [Tree.has, Tree.get]
  | .sing s =>
    match p with
    | [] => simp [Tree.has, Tree.get]
    | k :: p =>
      match s with
      | .leaf v => simp [Tree.has, Tree.get]
      | .sing s =>
        rw [Tree.has, Tree.get]
        · exact has_iff (.sing s) (k :: p)
        all_goals simp
      | .node es =>
        rw [Tree.has, Tree.get]
        · exact has_iff (.node es) (k :: p)
        all_goals simp
  | .node es =>
    match p with
    | [] => cases es <;> simp [Tree.has, Tree.get]
    | k :: p => simpa [Tree.has, Tree.get] using has_iffE es k p

theorem has_iffE (es : Entries V) (k : String) (p : List String) :
    es.has k p = some true ↔ (es.get k p).isSome = true := by
  match es with
  | .nil => simp [Entries.has, Entries.get]
  | .cons i t es =>
    simp only [Entries.has, Entries.get]
    split
    · split
      · simp
      · exact has_iff t p
    · exact has_iffE es k p
end

mutual
theorem mem_items (t : Tree V) (hw : Wf t) (p : List String) (v : V) : (p, v) ∈ t.items ↔ look t p = some v := by
  match t with
  | .leaf w =>
    simp only [Tree.items, List.mem_singleton, Prod.mk.injEq, look]
    split <;> simp_all [eq_comm]
  | .sing s => simpa [Tree.items, look] using mem_items s hw p v
  | .node es =>
    match p with
    | [] =>
      simp only [Tree.items, look, reduceCtorEq, iff_false]
      exact nil_not_mem es v
    | k :: p => simpa [Tree.items, look] using mem_itemsE es hw k p v

theorem mem_itemsE (es : Entries V) (hw : WfE es) (k : String) (p : List String) (v : V) :
    (k :: p, v) ∈ es.items ↔ lookE es k p = some v := by
  match es with
  | .nil => simp [Entries.items, lookE]
  | .cons i t es =>
    obtain ⟨h1, h2, h3⟩ := hw
    have ht := mem_items t h1 p v
    have he := mem_itemsE es h3 k p v
    simp only [Entries.items, List.mem_append, List.mem_map, Prod.mk.injEq, List.cons.injEq, lookE, he]
    by_cases hi : i = k
    · subst hi
      rw [lookE_none es i h2 p]
      simp only [if_true, reduceCtorEq, or_false, ← ht]
      constructor
      · rintro ⟨⟨a, b⟩, hm, ⟨-, ha⟩, hb⟩
        simp only at ha hb
        subst ha hb
        exact hm
      · intro hm; exact ⟨(p, v), hm, ⟨trivial, rfl⟩, rfl⟩
    · simp [hi]

theorem nil_not_mem (es : Entries V) (v : V) : ([], v) ∉ es.items := by
  match es with
  | .nil => simp [Entries.items]
  | .cons i t es => simp [Entries.items, nil_not_mem es v]
end

mutual
theorem len_items (t : Tree V) : t.len = t.items.length := by
  match t with
  | .leaf _ => rfl
  | .sing s => exact len_items s
  | .node es => exact len_itemsE es
theorem len_itemsE (es : Entries V) : es.len = es.items.length := by
  match es with
  | .nil => rfl
  | .cons _ t es => simp [Entries.len, Entries.items, len_items t, len_itemsE es]
end

mutual
theorem vals_items (t : Tree V) : t.vals = t.items.map Prod.snd := by
  match t with
  | .leaf _ => rfl
  | .sing s => exact vals_items s
  | .node es => exact vals_itemsE es
theorem vals_itemsE (es : Entries V) : es.vals = es.items.map Prod.snd := by
  match es with
  | .nil => rfl
  | .cons _ t es => simp [Entries.vals, Entries.items, vals_items t, vals_itemsE es, Function.comp_def]
end

mutual
theorem fmap_items (f : V → W) (t : Tree V) : (t.fmap f).items = t.items.map fun x => (x.1, f x.2) := by
  match t with
  | .leaf _ => rfl
  | .sing s => exact fmap_items f s
  | .node es => exact fmap_itemsE f es
theorem fmap_itemsE (f : V → W) (es : Entries V) : (es.fmap f).items = es.items.map fun x => (x.1, f x.2) := by
  match es with
  | .nil => rfl
  | .cons _ t es => simp [Entries.fmap, Entries.items, fmap_items f t, fmap_itemsE f es, Function.comp_def]
end

theorem items_setE_new (ow : Bool) (es : Entries V) (k : String) (u : Tree V) (es' : Entries V)
    (hn : es.find k = none) (h : es.set ow k [] u = some es') :
    es'.items = es.items ++ u.items.map fun x => (k :: x.1, x.2) := by
  match es with
  | .nil =>
    simp only [Entries.set, fresh, Option.map_some, Option.some.injEq] at h
    subst h
    simp [Entries.items]
  | .cons i t es =>
    simp only [Entries.find] at hn
    split at hn
    · simp at hn
    · rename_i hi
      simp only [Entries.set, hi, if_false, Option.map_eq_some_iff] at h
      obtain ⟨es'', h', rfl⟩ := h
      simp [Entries.items, items_setE_new ow es k u es'' hn h']

mutual
theorem set_present (t : Tree V) (p : List String) (u : Tree V) (hp : p ≠ []) (h : (t.get p).isSome = true) :
    t.set false p u = none := by
  match t with
  | .leaf _ => simp [Tree.set]
  | .sing s =>
    match p with
    | [] => exact absurd rfl hp
    | k :: p =>
      simp only [Tree.get] at h
      simp only [Tree.set, set_present s (k :: p) u hp h, Option.map_none]
  | .node es =>
    match p with
    | [] => exact absurd rfl hp
    | k :: p =>
      simp only [Tree.get] at h
      simp only [Tree.set, set_presentE es k p u h, Option.map_none, ite_self]

theorem set_presentE (es : Entries V) (k : String) (p : List String) (u : Tree V)
    (h : (es.get k p).isSome = true) : es.set false k p u = none := by
  match es with
  | .nil => simp [Entries.get] at h
  | .cons i t es =>
    simp only [Entries.get] at h
    simp only [Entries.set]
    split
    · rename_i hi
      split
      · simp
      · rename_i hp
        simp only [hi, hp, if_true, if_false] at h
        rw [set_present t p u hp h]; rfl
    · rename_i hi
      simp only [hi, if_false] at h
      rw [set_presentE es k p u h]; rfl
end

end Verif.Utils.Nested
