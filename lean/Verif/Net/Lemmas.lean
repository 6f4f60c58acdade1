import Verif.Net.Spec

/-! # The registry of layers during the construction of a network -/

namespace Verif.Net

variable {α β ι : Type}

theorem lookup_cons_self {γ : Type} (n : String) (v : γ) (l : List (String × γ)) : ((n, v) :: l).lookup n = some v := by
  simp [List.lookup]

theorem lookup_cons_ne {γ : Type} {n k : String} (v : γ) (l : List (String × γ)) (h : k ≠ n) : ((n, v) :: l).lookup k = l.lookup k := by
  have : (k == n) = false := by simpa using h
  simp [List.lookup, this]

open Classical in
theorem lookup_fill (name : String) (b : Obj β) (reg : Reg β) (k : String) :
    (fill name b reg).lookup k = if k = name ∧ reg.lookup name = some none then some (some b) else reg.lookup k := by
  induction reg with
  | nil => simp [fill]
  | cons p reg ih =>
    obtain ⟨n, v⟩ := p
    cases v with
    | some o =>
      rw [fill]
      by_cases hk : k = n
      · subst hk
        rw [lookup_cons_self, lookup_cons_self]
        by_cases hkn : k = name
        · subst hkn; simp [lookup_cons_self]
        · simp [hkn]
      · rw [lookup_cons_ne _ _ hk, ih, lookup_cons_ne _ _ hk]
        by_cases hkn : k = name
        · subst hkn; rw [lookup_cons_ne _ _ hk]
        · simp [hkn]
    | none =>
      rw [fill]
      split
      case isTrue hn =>
        subst hn
        by_cases hk : k = n
        · subst hk; simp [lookup_cons_self]
        · simp [lookup_cons_ne _ _ hk, hk]
      case isFalse hn =>
        by_cases hk : k = n
        · subst hk
          rw [lookup_cons_self, lookup_cons_self]
          simp [hn]
        · rw [lookup_cons_ne _ _ hk, ih, lookup_cons_ne _ _ hk, lookup_cons_ne _ _ (fun e : name = n => hn e.symm)]

theorem fill_some {name : String} {b : Obj β} {reg : Reg β} {k : String} {o : Obj β} (h : reg.lookup k = some (some o)) :
    (fill name b reg).lookup k = some (some o) := by
  rw [lookup_fill, if_neg, h]
  rintro ⟨rfl, h'⟩
  rw [h] at h'
  cases h'

theorem lookup_register (out : β) (ns : List String) : ∀ (id : Nat) (reg : Reg β) (k : String), k ∉ ns →
    (register id out ns reg).lookup k = reg.lookup k := by
  induction ns with
  | nil => intro id reg k _; rfl
  | cons n ns ih =>
    intro id reg k hk
    rw [List.mem_cons, not_or] at hk
    rw [register, ih _ _ _ hk.2, lookup_cons_ne _ _ hk.1]

theorem register_mem (out : β) (ns : List String) : ∀ (id : Nat) (reg : Reg β) (k : String), k ∈ ns →
    ∃ i, (register id out ns reg).lookup k = some (some (.leaf i k .plain (some out) out)) := by
  induction ns with
  | nil => intro id reg k h; cases h
  | cons n ns ih =>
    intro id reg k hk
    by_cases h : k ∈ ns
    · exact ih _ _ _ h
    · rcases List.mem_cons.mp hk with rfl | h'
      · exact ⟨id, by rw [register, lookup_register _ _ _ _ _ h, lookup_cons_self]⟩
      · exact absurd h' h

theorem lookup_append {γ : Type} (l l' : List (String × γ)) (k : String) : (l ++ l').lookup k = (l.lookup k).or (l'.lookup k) := by
  induction l with
  | nil => simp
  | cons p l ih =>
    obtain ⟨n, v⟩ := p
    by_cases h : k = n
    · subst h; rw [List.cons_append, lookup_cons_self, lookup_cons_self]; rfl
    · rw [List.cons_append, lookup_cons_ne _ _ h, lookup_cons_ne _ _ h, ih]

section
variable [DecidableEq β] {S : SpecFns β}

/-- What a successful constructor does. -/
theorem create_ok {id : Nat} {name : String} {kind : Kind} {inner : List String} {inp : β} {reg : Reg β} {r : Obj β × Reg β}
    (h : create S id name kind inner inp reg = .ok r) :
    ∃ out, r.1 = .leaf id name kind (some inp) out ∧
      r.2 = register (id + 1) out (if kind.hasInner then inner else []) ((name, some r.1) :: reg) ∧
      (∀ l, kind = .reuse l → name ≠ l ∧ ∃ o, reg.lookup l = some (some o) ∧ o.inp = some inp ∧ out = o.outIs inp) ∧
      (∀ t, kind = .register t → out = inp) ∧
      (kind.hasInner = true → S.out id inp = .ok out) := by
  unfold create at h
  split at h
  case h_1 l =>
    unfold createReuse at h
    split at h
    · cases h
    · rename_i r' hr
      split at h
      · cases h
      · rename_i o ho
        split at h
        · cases h
        · rename_i i hi
          split at h
          · rename_i e
            subst e
            injection h with h
            subst h
            by_cases hn : name = l
            · rw [if_pos hn] at ho; cases ho
            · rw [if_neg hn] at ho
              subst ho
              refine ⟨_, rfl, rfl, ?_, (by intro t ht; cases ht), (by intro ht; cases ht)⟩
              intro l' hl'
              cases hl'
              exact ⟨hn, o, hr, hi, rfl⟩
          · cases h
  case h_2 t =>
    injection h with h
    subst h
    exact ⟨_, rfl, rfl, (by intro l hl; cases hl), (by intro t _; rfl), (by intro ht; cases ht)⟩
  case h_3 t => cases h
  case h_4 h1 h2 h3 =>
    split at h
    · cases h
    · rename_i out ho
      injection h with h
      subst h
      cases kind with
      | retrieve ts => exact absurd rfl (h3 ts)
      | reuse l => exact absurd rfl (h1 l)
      | register t => exact absurd rfl (h2 t)
      | _ => exact ⟨out, rfl, rfl, (by intro l hl; cases hl), (by intro t ht; cases ht), fun _ => ho⟩

end

end Verif.Net
