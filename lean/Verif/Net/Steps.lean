import Verif.Net.Effect

/-! # The objects of a network carry out the steps of its specification -/

namespace Verif.Net

variable {α β ι : Type}

/-- A step with the states of the temporal layers found by their names. -/
def namedStep (F : Fns α ι) (m : Mode) : Step → Run α ι → Except NError (Run α ι)
  | .plain id => applyLeaf F m id "" .plain
  | .random id => applyLeaf F m id "" .random
  | .stateful id => applyLeaf F m id "" .stateful
  | .temporal id name => applyLeaf F m id name .temporal
  | .register t => applyLeaf F m 0 "" (.register t)
  | .retrieve id ts => applyLeaf F m id "" (.retrieve ts)

theorem chain_append {σ γ : Type} (f : γ → σ → Except NError σ) (l l' : List γ) : ∀ s,
    chain f (l ++ l') s = match chain f l s with
      | .error e => .error e
      | .ok s => chain f l' s := by
  induction l with
  | nil => intro s; rfl
  | cons a l ih =>
    intro s
    rw [List.cons_append, chain, chain]
    cases f a s with
    | error e => rfl
    | ok s => exact ih s

theorem chain_single {σ γ : Type} (f : γ → σ → Except NError σ) (a : γ) (s : σ) : chain f [a] s = f a s := by
  rw [chain]
  cases f a s <;> rfl

theorem temporalSteps_append (l l' : List Step) : temporalSteps (l ++ l') = temporalSteps l ++ temporalSteps l' := List.filterMap_append

/-- With a recursion limit which is large enough, the object carries out these steps. -/
def Good (R : Reg β) (o : Obj β) (steps : List Step) : Prop :=
  ∃ N, ∀ n, N ≤ n → (∀ (α ι : Type) (F : Fns α ι) (m : Mode) (s : Run α ι), run F m R n o s = chain (namedStep F m) steps s) ∧
    temporals R n o = .ok (temporalSteps steps)

def GoodAll (R : Reg β) (os : List (Obj β)) (steps : List Step) : Prop :=
  ∃ N, ∀ n, N ≤ n → (∀ (α ι : Type) (F : Fns α ι) (m : Mode) (s : Run α ι), chain (run F m R n) os s = chain (namedStep F m) steps s) ∧
    collect (temporals R n) os = .ok (temporalSteps steps)

theorem goodAll_nil (R : Reg β) : GoodAll R [] [] := ⟨0, fun _ _ => ⟨fun _ _ _ _ _ => rfl, rfl⟩⟩

theorem GoodAll.cons {R : Reg β} {o : Obj β} {os : List (Obj β)} {s1 s2 : List Step} (h : Good R o s1) (h' : GoodAll R os s2) :
    GoodAll R (o :: os) (s1 ++ s2) := by
  obtain ⟨N, h⟩ := h
  obtain ⟨N', h'⟩ := h'
  refine ⟨max N N', fun n hn => ?_⟩
  have h1 := h n (by omega)
  have h2 := h' n (by omega)
  constructor
  · intro α ι F m s
    rw [chain_append, chain, h1.1]
    cases chain (namedStep F m) s1 s with
    | error e => rfl
    | ok s => exact h2.1 _ _ _ _ _
  · rw [temporalSteps_append, collect, h1.2, h2.2]

theorem GoodAll.block {R : Reg β} {os : List (Obj β)} {steps : List Step} (h : GoodAll R os steps) (name : String) (inp out : β) :
    Good R (.block name os inp out) steps := by
  obtain ⟨N, h⟩ := h
  refine ⟨N + 1, fun n hn => ?_⟩
  obtain ⟨k, rfl⟩ : ∃ k, n = k + 1 := ⟨n - 1, by omega⟩
  exact ⟨fun α ι F m s => by rw [run]; exact (h k (by omega)).1 _ _ _ _ _, by rw [temporals]; exact (h k (by omega)).2⟩

theorem GoodAll.list {R : Reg β} {os : List (Obj β)} {steps : List Step} (h : GoodAll R os steps) : Good R (.list os) steps := by
  obtain ⟨N, h⟩ := h
  refine ⟨N + 1, fun n hn => ?_⟩
  obtain ⟨k, rfl⟩ : ∃ k, n = k + 1 := ⟨n - 1, by omega⟩
  exact ⟨fun α ι F m s => by rw [run]; exact (h k (by omega)).1 _ _ _ _ _, by rw [temporals]; exact (h k (by omega)).2⟩

/-- A layer which is not a reused one. -/
theorem good_leaf (R : Reg β) (id : Nat) (name : String) (kind : Kind) (inp : Option β) (out : β) (scope : Scope) (hk : ∀ l, kind ≠ .reuse l) :
    Good R (.leaf id name kind inp out) (kindSteps id name kind scope) := by
  refine ⟨1, fun n hn => ?_⟩
  obtain ⟨k, rfl⟩ : ∃ k, n = k + 1 := ⟨n - 1, by omega⟩
  cases kind with
  | reuse l => exact absurd rfl (hk l)
  | _ => exact ⟨fun α ι F m s => by rw [run.eq_def, kindSteps, chain_single]; rfl, by rw [temporals.eq_def]; rfl⟩

/-- A reused layer. -/
theorem good_reuse {R : Reg β} {l : String} {o : Obj β} {steps : List Step} (hR : R.lookup l = some (some o)) (h : Good R o steps)
    (id : Nat) (name : String) (inp : Option β) (out : β) : Good R (.leaf id name (.reuse l) inp out) steps := by
  obtain ⟨N, h⟩ := h
  refine ⟨N + 1, fun n hn => ?_⟩
  obtain ⟨k, rfl⟩ : ∃ k, n = k + 1 := ⟨n - 1, by omega⟩
  constructor
  · intro α ι F m s
    rw [run.eq_def]
    dsimp only
    rw [hR]
    exact (h k (by omega)).1 _ _ _ _ _
  · rw [temporals.eq_def]
    dsimp only
    rw [hR]
    exact (h k (by omega)).2

/-- The layers of a registry carry out what their names stand for. -/
def Described (R reg : Reg β) (scope : Scope) : Prop :=
  ∀ l o, reg.lookup l = some (some o) → ∃ steps, scope.lookup l = some steps ∧ Good R o steps

/-- The registry changes only at these names. -/
def Keeps (reg R : Reg β) (after : List String) : Prop :=
  ∀ l o, l ∉ after → reg.lookup l = some (some o) → R.lookup l = some (some o)

theorem register_innerDefs (out : β) (ns : List String) : ∀ (id : Nat) (reg : Reg β) (k : String), k ∈ ns →
    ∃ i, id ≤ i ∧ i < id + ns.length ∧ (register id out ns reg).lookup k = some (some (.leaf i k .plain (some out) out)) ∧
      (innerDefs id ns).lookup k = some [.plain i] := by
  induction ns with
  | nil => intro id reg k h; cases h
  | cons n ns ih =>
    intro id reg k hk
    by_cases h : k ∈ ns
    · obtain ⟨i, h3, h4, h1, h2⟩ := ih (id + 1) ((n, some (.leaf id n .plain (some out) out)) :: reg) k h
      exact ⟨i, by omega, by rw [List.length_cons]; omega, h1, by rw [innerDefs, lookup_append, h2]; rfl⟩
    · rcases List.mem_cons.mp hk with rfl | h'
      · exact ⟨id, by omega, by rw [List.length_cons]; omega, by rw [register, lookup_register _ _ _ _ _ h, lookup_cons_self], by
          rw [innerDefs, lookup_append, (innerDefs_lookup ns (id + 1) k).1 h, lookup_cons_self]; rfl⟩
      · exact absurd h' h

theorem described_leaf {R reg : Reg β} {scope : Scope} (h : Described R reg scope) (id : Nat) (name : String) (out : β) (inner : List String) (o : Obj β)
    (steps : List Step) (hg : Good R o steps) :
    Described R (register id out inner ((name, some o) :: reg)) ((innerDefs id inner ++ [(name, steps)]) ++ scope) := by
  intro k o' hk
  by_cases hi : k ∈ inner
  · obtain ⟨i, -, -, h1, h2⟩ := register_innerDefs out inner id ((name, some o) :: reg) k hi
    rw [h1] at hk
    injection hk with hk
    injection hk with hk
    rw [← hk]
    refine ⟨[.plain i], by rw [lookup_append, lookup_append, h2]; rfl, ?_⟩
    exact good_leaf R i k .plain (some out) out [] (by intro l hl; cases hl)
  · rw [lookup_register _ _ _ _ _ hi] at hk
    rw [lookup_append, lookup_append, (innerDefs_lookup inner id k).1 hi]
    by_cases hn : k = name
    · subst hn
      rw [lookup_cons_self] at hk
      injection hk with hk
      injection hk with hk
      rw [← hk]
      exact ⟨steps, by rw [lookup_cons_self]; rfl, hg⟩
    · rw [lookup_cons_ne _ _ hn] at hk
      rw [lookup_cons_ne _ _ hn]
      exact h k o' hk

theorem described_fill {R reg r1 : Reg β} {scope d : Scope} {name : String} {ns : List String} (he : Effect ns ((name, none) :: reg) r1)
    (hd : Defines ns d) (h : Described R r1 (d ++ scope)) (b : Obj β) (steps : List Step) (hg : Good R b steps) :
    Described R (fill name b r1) ((d ++ [(name, steps)]) ++ scope) := by
  intro k o hk
  rw [lookup_fill] at hk
  rw [lookup_append, lookup_append]
  split at hk
  · rename_i hc
    obtain ⟨rfl, hc⟩ := hc
    have hn : k ∉ ns := by
      intro hm
      obtain ⟨o', ho'⟩ := he.2 k hm
      rw [hc] at ho'
      cases ho'
    injection hk with hk
    injection hk with hk
    rw [← hk, hd.1 k hn, lookup_cons_self]
    exact ⟨steps, rfl, hg⟩
  · obtain ⟨steps', h1, h2⟩ := h k o hk
    refine ⟨steps', ?_, h2⟩
    rw [lookup_append] at h1
    by_cases hm : k ∈ ns
    · obtain ⟨s, hs⟩ := hd.2 k hm
      rw [hs] at h1 ⊢
      exact h1
    · rw [hd.1 k hm] at h1 ⊢
      have hn : k ≠ name := by
        intro e
        subst e
        rw [he.1 k hm, lookup_cons_self] at hk
        cases hk
      rw [lookup_cons_ne _ _ hn]
      exact h1

theorem Keeps.earlier {reg reg' R : Reg β} {ns after : List String} (h : Keeps reg' R after) (he : Effect ns reg reg') : Keeps reg R (ns ++ after) := by
  intro l o hl ho
  rw [List.mem_append, not_or] at hl
  exact h l o hl.2 (by rw [he.1 l hl.1, ho])

theorem Keeps.unfill {reg R : Reg β} {name : String} {b : Obj β} {after : List String} (h : Keeps (fill name b reg) R after) : Keeps reg R after :=
  fun l o hl ho => h l o hl (fill_some ho)

section
variable [DecidableEq β] {S : SpecFns β}

theorem create_steps {R : Reg β} {id : Nat} {name : String} {kind : Kind} {inner : List String} {inp : β} {reg : Reg β} {r : Obj β × Reg β}
    (h : create S id name kind inner inp reg = .ok r) {after : List String} {scope : Scope} (hs : Stable (.layer id name kind inner) after)
    (hd : Described R reg scope) (hk : Keeps r.2 R after) :
    Good R r.1 (expand (.layer id name kind inner) scope).1 ∧ Described R r.2 ((expand (.layer id name kind inner) scope).2 ++ scope) := by
  obtain ⟨out, h1, h2, h3, -, -⟩ := create_ok h
  have hg : Good R r.1 (kindSteps id name kind scope) := by
    by_cases hr : ∃ l, kind = .reuse l
    · obtain ⟨l, rfl⟩ := hr
      obtain ⟨hn, o, ho, -, -⟩ := h3 l rfl
      obtain ⟨steps, hsc, hg⟩ := hd l o ho
      rw [h1, kindSteps, hsc]
      rw [Stable] at hs
      refine good_reuse (hk l o hs ?_) hg _ _ _ _
      rw [h2]
      show List.lookup l (register (id + 1) out [] ((name, some r.1) :: reg)) = _
      rw [register, lookup_cons_ne _ _ (Ne.symm hn), ho]
    · rw [h1]
      exact good_leaf R id name kind _ out scope (fun l hl => hr ⟨l, hl⟩)
  refine ⟨by rw [expand]; exact hg, ?_⟩
  rw [h2, expand]
  have := described_leaf hd (id + 1) name out (if kind.hasInner then inner else []) r.1 _ hg
  cases hh : kind.hasInner with
  | true => rw [hh] at this; exact this
  | false => rw [hh] at this; exact this

mutual

theorem blockLayer_steps {R : Reg β} (l : LSpec) (ns : List String) (inp : β) (reg : Reg β) (r : Obj β × String × Reg β)
    (h : blockLayer S l ns inp reg = .ok r) (after : List String) (scope : Scope) (hs : Stable l after)
    (hd : Described R reg scope) (hk : Keeps r.2.2 R after) :
    Good R r.1 (expand l scope).1 ∧ Described R r.2.2 ((expand l scope).2 ++ scope) := by
  cases l with
  | list => rw [blockLayer] at h; cases h
  | layer id name kind inner => exact create_steps (blockLayer_layer h).1 hs hd hk
  | block name layers =>
    obtain ⟨os, out, r1, h1, -, -, h3, -, h2⟩ := blockLayer_block h
    rw [h2] at hk ⊢
    rw [Stable] at hs
    have hd' : Described R ((name, none) :: reg) scope := by
      intro k o hko
      by_cases e : k = name
      · subst e; rw [lookup_cons_self] at hko; cases hko
      · rw [lookup_cons_ne _ _ e] at hko; exact hd k o hko
    have ih := blockLayers_steps layers _ _ _ _ h1 after scope hs hd' hk.unfill
    have hg := ih.1.block name inp out
    rw [expand, h3]
    exact ⟨hg, described_fill (blockLayers_effect _ _ _ _ _ h1) (expandAll_defines layers scope) ih.2 _ _ hg⟩

theorem blockLayers_steps {R : Reg β} (ls : List LSpec) (ns : List String) (inp : β) (reg : Reg β) (r : List (Obj β) × β × Reg β)
    (h : blockLayers S ls ns inp reg = .ok r) (after : List String) (scope : Scope) (hs : StableAll ls after)
    (hd : Described R reg scope) (hk : Keeps r.2.2 R after) :
    GoodAll R r.1 (expandAll ls scope).1 ∧ Described R r.2.2 ((expandAll ls scope).2 ++ scope) := by
  cases ls with
  | nil =>
    rw [blockLayers] at h
    injection h with h
    rw [← h]
    exact ⟨goodAll_nil R, hd⟩
  | cons l ls =>
    obtain ⟨o, n, reg1, os, h1, h2, h3⟩ := blockLayers_cons h
    rw [StableAll] at hs
    have he := blockLayers_effect ls _ _ _ (os, r.2) h2
    have i1 := blockLayer_steps l _ _ _ _ h1 _ scope hs.1 hd (Keeps.earlier hk he)
    have i2 := blockLayers_steps ls _ _ _ (os, r.2) h2 after _ hs.2 i1.2 hk
    rw [expandAll, h3]
    refine ⟨GoodAll.cons i1.1 i2.1, ?_⟩
    rw [List.append_assoc]
    exact i2.2

end

mutual

theorem netLayer_steps {R : Reg β} {invalid : Kind → Bool} (l : LSpec) (st : Build β) (q : Obj β × Build β)
    (h : netLayer S invalid l st = .ok q) (after : List String) (scope : Scope) (hs : Stable l after)
    (hd : Described R st.reg scope) (hk : Keeps q.2.reg R after) :
    Good R q.1 (expand l scope).1 ∧ Described R q.2.reg ((expand l scope).2 ++ scope) := by
  cases l with
  | list specs =>
    obtain ⟨os, h1, h2⟩ := netLayer_list h
    rw [Stable] at hs
    have i := netLayers_steps specs st (os, q.2) h1 after scope hs hd hk
    rw [h2, expand]
    exact ⟨i.1.list, i.2⟩
  | layer id name kind inner =>
    obtain ⟨r, h1, h2⟩ := netLayer_layer h
    have ha := added_ok h1
    rw [ha.2.2.1] at hk ⊢
    rw [ha.2.1]
    rcases h2 with ⟨ts, rfl, h2⟩ | ⟨-, h2⟩
    · obtain ⟨bs, out, -, -, -, -, h3, h4⟩ := retrieve_ok h2
      have hg : Good R r.1 (kindSteps id name (.retrieve ts) scope) := by
        rw [h3]
        exact good_leaf R id name (.retrieve ts) none out scope (by intro l hl; cases hl)
      rw [h4, expand]
      exact ⟨hg, described_leaf hd 0 name out [] r.1 _ hg⟩
    · exact create_steps h2 hs hd hk
  | block name layers =>
    obtain ⟨reg, h1, h2⟩ := netLayer_block h
    rw [h2] at hk ⊢
    exact blockLayer_steps _ _ _ _ _ h1 after scope hs hd hk

theorem netLayers_steps {R : Reg β} {invalid : Kind → Bool} (ls : List LSpec) (st : Build β) (q : List (Obj β) × Build β)
    (h : netLayers S invalid ls st = .ok q) (after : List String) (scope : Scope) (hs : StableAll ls after)
    (hd : Described R st.reg scope) (hk : Keeps q.2.reg R after) :
    GoodAll R q.1 (expandAll ls scope).1 ∧ Described R q.2.reg ((expandAll ls scope).2 ++ scope) := by
  cases ls with
  | nil =>
    rw [netLayers] at h
    injection h with h
    rw [← h]
    exact ⟨goodAll_nil R, hd⟩
  | cons l ls =>
    obtain ⟨o, st1, os, h1, h2, h3⟩ := netLayers_cons h
    rw [StableAll] at hs
    have he := netLayers_effect ls _ (os, q.2) h2
    have i1 := netLayer_steps l _ _ h1 _ scope hs.1 hd (Keeps.earlier hk he)
    have i2 := netLayers_steps ls _ (os, q.2) h2 after _ hs.2 i1.2 hk
    rw [expandAll, h3]
    refine ⟨GoodAll.cons i1.1 i2.1, ?_⟩
    rw [List.append_assoc]
    exact i2.2

end

end

end Verif.Net
