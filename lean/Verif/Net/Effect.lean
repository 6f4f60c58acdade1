import Verif.Net.Lemmas

/-! # Which entries of the registry a part of a network changes, and which names its steps define -/

namespace Verif.Net

variable {α β ι : Type}

/-- Exactly the given names are (re)defined. -/
def Effect (ns : List String) (reg reg' : Reg β) : Prop :=
  (∀ k, k ∉ ns → reg'.lookup k = reg.lookup k) ∧ ∀ k, k ∈ ns → ∃ o, reg'.lookup k = some (some o)

theorem Effect.trans {ns ms : List String} {r1 r2 r3 : Reg β} (h : Effect ns r1 r2) (h' : Effect ms r2 r3) : Effect (ns ++ ms) r1 r3 := by
  constructor
  · intro k hk
    rw [List.mem_append, not_or] at hk
    rw [h'.1 k hk.2, h.1 k hk.1]
  · intro k hk
    by_cases hm : k ∈ ms
    · exact h'.2 k hm
    · obtain ⟨o, ho⟩ := h.2 k ((List.mem_append.mp hk).resolve_right hm)
      exact ⟨o, by rw [h'.1 k hm, ho]⟩

theorem effect_leaf (id : Nat) (name : String) (out : β) (inner : List String) (o : Obj β) (reg : Reg β) :
    Effect (name :: inner) reg (register id out inner ((name, some o) :: reg)) := by
  constructor
  · intro k hk
    rw [List.mem_cons, not_or] at hk
    rw [lookup_register _ _ _ _ _ hk.2, lookup_cons_ne _ _ hk.1]
  · intro k hk
    by_cases hi : k ∈ inner
    · obtain ⟨i, h⟩ := register_mem out inner id ((name, some o) :: reg) k hi
      exact ⟨_, h⟩
    · rcases List.mem_cons.mp hk with rfl | h
      · exact ⟨o, by rw [lookup_register _ _ _ _ _ hi, lookup_cons_self]⟩
      · exact absurd h hi

theorem effect_fill {name : String} {ns : List String} {reg r1 : Reg β} (b : Obj β) (h : Effect ns ((name, none) :: reg) r1) :
    Effect (name :: ns) reg (fill name b r1) := by
  constructor
  · intro k hk
    rw [List.mem_cons, not_or] at hk
    rw [lookup_fill, if_neg (fun e => hk.1 e.1), h.1 k hk.2, lookup_cons_ne _ _ hk.1]
  · intro k hk
    by_cases hi : k ∈ ns
    · obtain ⟨o, ho⟩ := h.2 k hi
      exact ⟨o, fill_some ho⟩
    · rcases List.mem_cons.mp hk with rfl | h'
      · refine ⟨b, ?_⟩
        rw [lookup_fill, if_pos ⟨rfl, by rw [h.1 _ hi, lookup_cons_self]⟩]
      · exact absurd h' hi

theorem effect_nil (reg : Reg β) : Effect [] reg reg := ⟨fun _ _ => rfl, by intro k hk; cases hk⟩

section
variable [DecidableEq β] {S : SpecFns β}

theorem create_effect {id : Nat} {name : String} {kind : Kind} {inner : List String} {inp : β} {reg : Reg β} {r : Obj β × Reg β}
    (h : create S id name kind inner inp reg = .ok r) : Effect (name :: if kind.hasInner then inner else []) reg r.2 := by
  obtain ⟨out, h1, h2, -⟩ := create_ok h
  rw [h2]
  exact effect_leaf _ _ _ _ _ _

theorem retrieve_ok {id : Nat} {name : String} {ts : List String} {tensors : List (String × β)} {reg : Reg β} {r : Obj β × Reg β}
    (h : createRetrieve S id name ts tensors reg = .ok r) :
    ∃ bs out, lookupAll ts tensors = some bs ∧ ts ≠ [] ∧ ts.Nodup ∧ S.agg id bs = .ok out ∧ r.1 = .leaf id name (.retrieve ts) none out ∧
      r.2 = (name, some r.1) :: reg := by
  unfold createRetrieve at h
  split at h
  · cases h
  · rename_i bs hb
    split at h
    · cases h
    · rename_i hn
      rw [not_or, Decidable.not_not] at hn
      split at h
      · cases h
      · rename_i out ho
        injection h with h
        subst h
        exact ⟨bs, out, hb, hn.1, hn.2, ho, rfl, rfl⟩

/-- The result of `blockLayer` for a layer. -/
theorem blockLayer_layer {id : Nat} {name : String} {kind : Kind} {inner : List String} {ns : List String} {inp : β} {reg : Reg β}
    {r : Obj β × String × Reg β} (h : blockLayer S (.layer id name kind inner) ns inp reg = .ok r) :
    create S id name kind inner inp reg = .ok (r.1, r.2.2) ∧ r.2.1 = name ∧ name ∉ ns ∧ (∀ t, kind ≠ .register t) ∧ (∀ t, kind ≠ .retrieve t) := by
  rw [blockLayer.eq_def] at h
  dsimp only at h
  split at h
  · cases h
  · cases h
  · rename_i h1 h2
    split at h
    · cases h
    · rename_i hn
      split at h
      · cases h
      · rename_i r' hr
        injection h with h
        subst h
        exact ⟨hr, rfl, hn, h1, h2⟩

/-- The result of `blockLayer` for a block. -/
theorem blockLayer_block {name : String} {layers : List LSpec} {ns : List String} {inp : β} {reg : Reg β}
    {r : Obj β × String × Reg β} (h : blockLayer S (.block name layers) ns inp reg = .ok r) :
    ∃ os out r1, blockLayers S layers [] inp ((name, none) :: reg) = .ok (os, out, r1) ∧ name ∉ ns ∧ layers ≠ [] ∧
      r.1 = .block name os inp out ∧ r.2.1 = name ∧ r.2.2 = fill name (.block name os inp out) r1 := by
  rw [blockLayer] at h
  split at h
  · cases h
  · rename_i hn
    split at h
    · cases h
    · rename_i hl
      split at h
      · cases h
      · rename_i r' hr
        injection h with h
        subst h
        obtain ⟨os, out, r1⟩ := r'
        refine ⟨os, out, r1, hr, hn, ?_, rfl, rfl, rfl⟩
        intro e
        subst e
        exact hl rfl

theorem blockLayers_cons {l : LSpec} {ls : List LSpec} {ns : List String} {inp : β} {reg : Reg β} {r : List (Obj β) × β × Reg β}
    (h : blockLayers S (l :: ls) ns inp reg = .ok r) :
    ∃ o n reg1 os, blockLayer S l ns inp reg = .ok (o, n, reg1) ∧ blockLayers S ls (n :: ns) (o.outIs inp) reg1 = .ok (os, r.2) ∧ r.1 = o :: os := by
  rw [blockLayers] at h
  split at h
  · cases h
  · rename_i r1 h1
    split at h
    · cases h
    · rename_i r2 h2
      injection h with h
      subst h
      exact ⟨r1.1, r1.2.1, r1.2.2, r2.1, h1, h2, rfl⟩

mutual

theorem blockLayer_effect (l : LSpec) (ns : List String) (inp : β) (reg : Reg β) (r : Obj β × String × Reg β)
    (h : blockLayer S l ns inp reg = .ok r) : Effect (names l) reg r.2.2 := by
  cases l with
  | list => rw [blockLayer] at h; cases h
  | layer id name kind inner => exact create_effect (blockLayer_layer h).1
  | block name layers =>
    obtain ⟨os, out, r1, h1, -, -, -, -, h2⟩ := blockLayer_block h
    rw [h2, names]
    exact effect_fill _ (blockLayers_effect layers _ _ _ _ h1)

theorem blockLayers_effect (ls : List LSpec) (ns : List String) (inp : β) (reg : Reg β) (r : List (Obj β) × β × Reg β)
    (h : blockLayers S ls ns inp reg = .ok r) : Effect (namesAll ls) reg r.2.2 := by
  cases ls with
  | nil =>
    rw [blockLayers] at h
    injection h with h
    subst h
    exact effect_nil _
  | cons l ls =>
    obtain ⟨o, n, reg1, os, h1, h2, h3⟩ := blockLayers_cons h
    rw [namesAll]
    exact (blockLayer_effect l _ _ _ _ h1).trans (blockLayers_effect ls _ _ _ (os, r.2) h2)

end

/-! ### The network -/

theorem added_ok {invalid : Kind → Bool} {kind : Kind} {st : Build β} {r : Obj β × Reg β} {q : Obj β × Build β} (h : added invalid kind st r = .ok q) :
    invalid kind = false ∧ q.1 = r.1 ∧ q.2.reg = r.2 ∧ q.2.out = r.1.outIs st.out ∧
      ((∃ t, kind = .register t ∧ st.tensors.lookup t = none ∧ q.2.tensors = (t, r.1.outIs st.out) :: st.tensors) ∨
        (∀ t, kind ≠ .register t) ∧ q.2.tensors = st.tensors) := by
  unfold added at h
  split at h
  · cases h
  · rename_i hi
    refine ⟨by simpa using hi, ?_⟩
    split at h
    · rename_i t
      split at h
      · cases h
      · rename_i ht
        injection h with h
        subst h
        refine ⟨rfl, rfl, rfl, .inl ⟨t, rfl, by cases hl : st.tensors.lookup t with | none => rfl | some v => exact absurd (by rw [hl]; rfl) ht, rfl⟩⟩
    · rename_i hk
      injection h with h
      subst h
      exact ⟨rfl, rfl, rfl, .inr ⟨hk, rfl⟩⟩

theorem netLayer_layer {invalid : Kind → Bool} {id : Nat} {name : String} {kind : Kind} {inner : List String} {st : Build β} {q : Obj β × Build β}
    (h : netLayer S invalid (.layer id name kind inner) st = .ok q) :
    ∃ r, added invalid kind st r = .ok q ∧ ((∃ ts, kind = .retrieve ts ∧ createRetrieve S id name ts st.tensors st.reg = .ok r) ∨
      (∀ ts, kind ≠ .retrieve ts) ∧ create S id name kind inner st.out st.reg = .ok r) := by
  rw [netLayer.eq_def] at h
  dsimp only at h
  split at h
  · rename_i ts
    split at h
    · cases h
    · rename_i r hr
      exact ⟨r, h, .inl ⟨ts, rfl, hr⟩⟩
  · rename_i hk
    split at h
    · cases h
    · rename_i r hr
      exact ⟨r, h, .inr ⟨hk, hr⟩⟩

theorem netLayer_block {invalid : Kind → Bool} {name : String} {layers : List LSpec} {st : Build β} {q : Obj β × Build β}
    (h : netLayer S invalid (.block name layers) st = .ok q) :
    ∃ reg, blockLayer S (.block name layers) [] st.out st.reg = .ok (q.1, name, reg) ∧ q.2 = ⟨reg, q.1.outIs st.out, st.tensors⟩ := by
  rw [netLayer] at h
  split at h
  · cases h
  · rename_i r hr
    injection h with h
    subst h
    obtain ⟨o, n, reg⟩ := r
    obtain ⟨os, out, r1, -, -, -, -, h2, -⟩ := blockLayer_block hr
    cases h2
    exact ⟨reg, hr, rfl⟩

theorem netLayer_list {invalid : Kind → Bool} {specs : List LSpec} {st : Build β} {q : Obj β × Build β}
    (h : netLayer S invalid (.list specs) st = .ok q) :
    ∃ os, netLayers S invalid specs st = .ok (os, q.2) ∧ q.1 = .list os := by
  rw [netLayer] at h
  split at h
  · cases h
  · rename_i r hr
    injection h with h
    subst h
    exact ⟨r.1, hr, rfl⟩

theorem netLayers_cons {invalid : Kind → Bool} {l : LSpec} {ls : List LSpec} {st : Build β} {q : List (Obj β) × Build β}
    (h : netLayers S invalid (l :: ls) st = .ok q) :
    ∃ o st1 os, netLayer S invalid l st = .ok (o, st1) ∧ netLayers S invalid ls st1 = .ok (os, q.2) ∧ q.1 = o :: os := by
  rw [netLayers] at h
  split at h
  · cases h
  · rename_i r1 h1
    split at h
    · cases h
    · rename_i r2 h2
      injection h with h
      subst h
      exact ⟨r1.1, r1.2, r2.1, h1, h2, rfl⟩

mutual

theorem netLayer_effect {invalid : Kind → Bool} (l : LSpec) (st : Build β) (q : Obj β × Build β)
    (h : netLayer S invalid l st = .ok q) : Effect (names l) st.reg q.2.reg := by
  cases l with
  | list specs =>
    obtain ⟨os, h1, -⟩ := netLayer_list h
    rw [names]
    exact netLayers_effect specs _ _ h1
  | layer id name kind inner =>
    obtain ⟨r, h1, h2⟩ := netLayer_layer h
    rw [(added_ok h1).2.2.1]
    rcases h2 with ⟨ts, rfl, h2⟩ | ⟨-, h2⟩
    · obtain ⟨bs, out, -, -, -, -, -, h3⟩ := retrieve_ok h2
      rw [h3]
      exact effect_leaf 0 name out [] r.1 st.reg
    · exact create_effect h2
  | block name layers =>
    obtain ⟨reg, h1, h2⟩ := netLayer_block h
    rw [h2]
    exact blockLayer_effect _ _ _ _ _ h1

theorem netLayers_effect {invalid : Kind → Bool} (ls : List LSpec) (st : Build β) (q : List (Obj β) × Build β)
    (h : netLayers S invalid ls st = .ok q) : Effect (namesAll ls) st.reg q.2.reg := by
  cases ls with
  | nil =>
    rw [netLayers] at h
    injection h with h
    subst h
    exact effect_nil _
  | cons l ls =>
    obtain ⟨o, st1, os, h1, h2, -⟩ := netLayers_cons h
    rw [namesAll]
    exact (netLayer_effect l _ _ h1).trans (netLayers_effect ls _ (os, q.2) h2)

end

end

/-! ### The names of the specification -/

theorem innerDefs_lookup (ns : List String) : ∀ (id : Nat) (k : String), (k ∉ ns → (innerDefs id ns).lookup k = none) ∧
    (k ∈ ns → ∃ i, (innerDefs id ns).lookup k = some [.plain i]) := by
  induction ns with
  | nil => intro id k; exact ⟨fun _ => rfl, by intro h; cases h⟩
  | cons n ns ih =>
    intro id k
    rw [innerDefs, lookup_append]
    constructor
    · intro h
      rw [List.mem_cons, not_or] at h
      rw [(ih (id + 1) k).1 h.2, lookup_cons_ne _ _ h.1]
      rfl
    · intro h
      by_cases hn : k ∈ ns
      · obtain ⟨i, hi⟩ := (ih (id + 1) k).2 hn
        exact ⟨i, by rw [hi]; rfl⟩
      · rcases List.mem_cons.mp h with rfl | h'
        · exact ⟨id, by rw [(ih (id + 1) k).1 hn, lookup_cons_self]; rfl⟩
        · exact absurd h' hn

/-- Exactly these names are defined. -/
def Defines (ns : List String) (d : Scope) : Prop := (∀ k, k ∉ ns → d.lookup k = none) ∧ ∀ k, k ∈ ns → ∃ s, d.lookup k = some s

theorem Defines.append {ns ms : List String} {d e : Scope} (h : Defines ns d) (h' : Defines ms e) : Defines (ns ++ ms) (e ++ d) := by
  constructor
  · intro k hk
    rw [List.mem_append, not_or] at hk
    rw [lookup_append, h'.1 k hk.2, h.1 k hk.1]
    rfl
  · intro k hk
    rw [lookup_append]
    by_cases hm : k ∈ ms
    · obtain ⟨s, hs⟩ := h'.2 k hm
      exact ⟨s, by rw [hs]; rfl⟩
    · obtain ⟨s, hs⟩ := h.2 k ((List.mem_append.mp hk).resolve_right hm)
      exact ⟨s, by rw [h'.1 k hm, hs]; rfl⟩

theorem Defines.single (n : String) (s : List Step) : Defines [n] [(n, s)] := by
  constructor
  · intro k hk
    rw [List.mem_singleton] at hk
    rw [lookup_cons_ne _ _ hk]
    rfl
  · intro k hk
    rw [List.mem_singleton] at hk
    subst hk
    exact ⟨s, lookup_cons_self _ _ _⟩

theorem defines_inner (id : Nat) (ns : List String) : Defines ns (innerDefs id ns) :=
  ⟨fun k => (innerDefs_lookup ns id k).1, fun k h => ((innerDefs_lookup ns id k).2 h).elim fun i hi => ⟨_, hi⟩⟩

mutual

theorem expand_defines (l : LSpec) (scope : Scope) : Defines (names l) (expand l scope).2 := by
  cases l with
  | layer id name kind inner =>
    rw [names, expand]
    have h := (Defines.single name (kindSteps id name kind scope)).append (e := if kind.hasInner then innerDefs (id + 1) inner else [])
      (ms := if kind.hasInner then inner else []) (by
        split
        · exact defines_inner _ _
        · exact ⟨fun _ _ => rfl, by intro k hk; cases hk⟩)
    exact h
  | block name layers =>
    rw [names, expand]
    exact (Defines.single name _).append (expandAll_defines layers scope)
  | list specs =>
    rw [names, expand]
    exact expandAll_defines specs scope

theorem expandAll_defines (ls : List LSpec) (scope : Scope) : Defines (namesAll ls) (expandAll ls scope).2 := by
  cases ls with
  | nil => rw [namesAll, expandAll]; exact ⟨fun _ _ => rfl, by intro k hk; cases hk⟩
  | cons l ls =>
    rw [namesAll, expandAll]
    exact (expand_defines l scope).append (expandAll_defines ls _)

end

end Verif.Net
