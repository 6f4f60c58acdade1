import Verif.Graph.Model

namespace Verif.Graph

mutual
theorem beq_eq : ∀ {a b : PyVal}, a.beq b = true → a = b
  | .none, b, h => by cases b <;> simp [PyVal.beq] at h; rfl
  | .bool _, b, h => by cases b <;> simp [PyVal.beq] at h; rw [h]
  | .int _, b, h => by cases b <;> simp [PyVal.beq] at h; rw [h]
  | .str _, b, h => by cases b <;> simp [PyVal.beq] at h; rw [h]
  | .tuple _, b, h => by
    cases b <;> simp only [PyVal.beq, Bool.false_eq_true] at h
    rw [beqList_eq h]
theorem beqList_eq : ∀ {a b : List PyVal}, beqList a b = true → a = b
  | [], b, h => by cases b <;> simp [beqList] at h; rfl
  | _ :: _, b, h => by
    cases b with
    | nil => simp [beqList] at h
    | cons =>
      simp only [beqList, Bool.and_eq_true] at h
      rw [beq_eq h.1, beqList_eq h.2]
end

mutual
theorem beq_self : ∀ a : PyVal, a.beq a = true
  | .none => rfl
  | .bool _ => by simp [PyVal.beq]
  | .int _ => by simp [PyVal.beq]
  | .str _ => by simp [PyVal.beq]
  | .tuple l => by rw [PyVal.beq]; exact beqList_self l
theorem beqList_self : ∀ l : List PyVal, beqList l l = true
  | [] => rfl
  | a :: l => by rw [beqList, beq_self a, beqList_self l]; rfl
end

theorem find_mem {key : List PyVal} {c : Cache} {g : Kwargs} (h : find key c = some g) : (key, g) ∈ c := by
  induction c with
  | nil => cases h
  | cons e c ih =>
    obtain ⟨k, g'⟩ := e
    rw [find] at h
    split at h
    · rename_i hk
      cases h
      rw [beqList_eq hk]; simp
    · exact List.mem_cons_of_mem _ (ih h)

theorem find_none {key : List PyVal} {c : Cache} (h : find key c = none) (g : Kwargs) : (key, g) ∉ c := by
  induction c with
  | nil => simp
  | cons e c ih =>
    obtain ⟨k, g'⟩ := e
    rw [find] at h
    split at h
    · cases h
    · rename_i hk
      intro hm
      rcases List.mem_cons.mp hm with e | hm
      · cases e; exact hk (beqList_self _)
      · exact ih h hm

/-- Every graph is filed under the key of its parameters, was called for, and no key has two. -/
structure Good (c : Cache) (history : List Kwargs) : Prop where
  key : ∀ k g, (k, g) ∈ c → graphParams g = some k
  called : ∀ k g, (k, g) ∈ c → g ∈ history
  once : (c.map Prod.fst).Nodup
  complete : ∀ kw ∈ history, ∀ k, graphParams kw = some k → k ∈ c.map Prod.fst

theorem Good.call {c c' : Cache} {h : List Kwargs} (hg : Good c h) {kw g : Kwargs} (hc : call c kw = some (c', g)) :
    Good c' (h ++ [kw]) ∧ ∃ k, graphParams kw = some k ∧ (k, g) ∈ c' := by
  unfold Verif.Graph.call at hc
  split at hc
  · cases hc
  · rename_i key hkey
    split at hc
    · rename_i g' hf
      cases hc
      refine ⟨⟨hg.key, fun k g hm => List.mem_append_left _ (hg.called k g hm), hg.once, ?_⟩, key, hkey, find_mem hf⟩
      intro kw' hm k hk
      rcases List.mem_append.mp hm with hm | hm
      · exact hg.complete kw' hm k hk
      · rw [List.mem_singleton.mp hm, hkey] at hk
        cases hk
        exact List.mem_map.mpr ⟨_, find_mem hf, rfl⟩
    · rename_i hf
      cases hc
      refine ⟨⟨?_, ?_, ?_, ?_⟩, key, hkey, by simp⟩
      · intro k g hm
        rcases List.mem_cons.mp hm with e | hm
        · cases e; exact hkey
        · exact hg.key k g hm
      · intro k g hm
        rcases List.mem_cons.mp hm with e | hm
        · cases e; simp
        · exact List.mem_append_left _ (hg.called k g hm)
      · rw [List.map_cons, List.nodup_cons]
        refine ⟨?_, hg.once⟩
        intro hm
        obtain ⟨⟨k, g⟩, hin, e⟩ := List.mem_map.mp hm
        have e : k = key := e
        rw [e] at hin
        exact find_none hf g hin
      · intro kw' hm k hk
        rcases List.mem_append.mp hm with hm | hm
        · exact List.mem_cons_of_mem _ (hg.complete kw' hm k hk)
        · rw [List.mem_singleton.mp hm, hkey] at hk
          cases hk
          simp

theorem Good.raise {c : Cache} {h : List Kwargs} (hg : Good c h) {kw : Kwargs} (hc : Verif.Graph.call c kw = none) : Good c (h ++ [kw]) := by
  refine ⟨hg.key, fun k g hm => List.mem_append_left _ (hg.called k g hm), hg.once, ?_⟩
  intro kw' hm k hk
  rcases List.mem_append.mp hm with hm | hm
  · exact hg.complete kw' hm k hk
  · rw [List.mem_singleton.mp hm] at hk
    unfold Verif.Graph.call at hc
    rw [hk] at hc
    dsimp only at hc
    split at hc <;> cases hc

theorem good_calls {c : Cache} {h : List Kwargs} (hg : Good c h) (l : List Kwargs) : Good (calls c l) (h ++ l) := by
  induction l generalizing c h with
  | nil => simpa [calls] using hg
  | cons kw l ih =>
    rw [calls]
    split
    · rename_i hn
      simpa using ih (hg.raise hn)
    · rename_i c' g hc
      simpa using ih (hg.call hc).1

/-- A graph stays. -/
theorem find_call {c c' : Cache} {kw g : Kwargs} (hc : call c kw = some (c', g)) {key : List PyVal} {g' : Kwargs} (h : find key c = some g') :
    find key c' = some g' := by
  unfold call at hc
  split at hc
  · cases hc
  · rename_i key' _
    split at hc
    · cases hc; exact h
    · rename_i hf
      cases hc
      rw [find, if_neg, h]
      intro e
      rw [beqList_eq e, h] at hf
      cases hf

theorem find_calls {c : Cache} {key : List PyVal} {g : Kwargs} (h : find key c = some g) (l : List Kwargs) : find key (calls c l) = some g := by
  induction l generalizing c with
  | nil => exact h
  | cons kw l ih =>
    rw [calls]
    split
    · exact ih h
    · rename_i c' g' hc
      exact ih (find_call hc h)

theorem call_find {c c' : Cache} {kw g : Kwargs} (h : call c kw = some (c', g)) : ∃ key, graphParams kw = some key ∧ find key c' = some g := by
  unfold call at h
  split at h
  · cases h
  · rename_i key hkey
    refine ⟨key, hkey, ?_⟩
    split at h
    · rename_i hf; cases h; exact hf
    · cases h; rw [find, if_pos (beqList_self _)]

theorem call_found {c : Cache} {kw g : Kwargs} {key : List PyVal} (hk : graphParams kw = some key) (h : find key c = some g) :
    call c kw = some (c, g) := by
  rw [call, hk]
  dsimp only
  rw [h]

theorem good_empty : Good [] [] := ⟨by simp, by simp, by simp, by simp⟩

theorem graphParams_map {kw : Kwargs} {ks : List PyVal} (h : graphParams kw = some ks) : kw.map (fun e => makeKey e.2) = ks.map some := by
  induction kw generalizing ks with
  | nil => cases h; rfl
  | cons e kw ih =>
    obtain ⟨n, p⟩ := e
    rw [graphParams] at h
    split at h
    · rename_i k ks' hk hks
      cases h
      rw [List.map_cons, List.map_cons, ih hks]
      exact congrArg (· :: _) hk
    · cases h

end Verif.Graph
