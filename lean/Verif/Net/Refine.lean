import Verif.Net.Steps

/-! # Steps with states found by name, and steps with a state for every temporal layer; specifications of tensors along the steps -/

namespace Verif.Net

variable {α β ι : Type}

theorem lookup_assign {γ : Type} (name : String) (i : γ) (l : List (String × γ)) (k : String) :
    (assign name i l).lookup k = if k = name then some i else l.lookup k := by
  induction l with
  | nil =>
    rw [assign]
    by_cases h : k = name
    · subst h; rw [lookup_cons_self, if_pos rfl]
    · rw [lookup_cons_ne _ _ h, if_neg h]
  | cons p l ih =>
    obtain ⟨n, j⟩ := p
    rw [assign]
    split
    case isTrue hn =>
      subst hn
      by_cases h : k = n
      · subst h; rw [lookup_cons_self, if_pos rfl]
      · rw [lookup_cons_ne _ _ h, if_neg h, lookup_cons_ne _ _ h]
    case isFalse hn =>
      by_cases h : k = n
      · subst h; rw [lookup_cons_self, if_neg hn, lookup_cons_self]
      · rw [lookup_cons_ne _ _ h, ih, lookup_cons_ne _ _ h]

theorem keys_assign {γ : Type} (name : String) (i : γ) (l : List (String × γ)) (h : (l.lookup name).isSome) :
    (assign name i l).map Prod.fst = l.map Prod.fst := by
  induction l with
  | nil => cases h
  | cons p l ih =>
    obtain ⟨n, j⟩ := p
    rw [assign]
    split
    · rfl
    · rename_i hn
      rw [lookup_cons_ne _ _ (fun e : name = n => hn e.symm)] at h
      rw [List.map_cons, List.map_cons, ih h]

/-- The internals hold the state of every one of these temporal layers. -/
def Agree (keys : List (Nat × String)) (s : Run α ι) (e : Exec α ι) : Prop :=
  s.x = e.x ∧ s.tensors = e.tensors ∧ s.check = e.check ∧ ∀ k ∈ keys, s.internals.lookup k.2 = some (e.states k)

/-- The same result, or the same error. -/
def Same (keys : List (Nat × String)) (ks : List String) (a : Except NError (Run α ι)) (b : Except NError (Exec α ι)) : Prop :=
  match a, b with
  | .ok s, .ok e => Agree keys s e ∧ s.internals.map Prod.fst = ks
  | .error x, .error y => x = y
  | _, _ => False

theorem nodup_snd {keys : List (Nat × String)} (h : (keys.map Prod.snd).Nodup) {a b : Nat × String} (ha : a ∈ keys) (hb : b ∈ keys) (he : a.2 = b.2) :
    a = b := by
  induction keys with
  | nil => cases ha
  | cons k keys ih =>
    rw [List.map_cons, List.nodup_cons] at h
    rcases List.mem_cons.mp ha with rfl | ha'
    · rcases List.mem_cons.mp hb with rfl | hb'
      · rfl
      · exact (h.1 (he ▸ List.mem_map_of_mem hb')).elim
    · rcases List.mem_cons.mp hb with rfl | hb'
      · exact (h.1 (he ▸ List.mem_map_of_mem ha')).elim
      · exact ih h.2 ha' hb'

theorem step_same (F : Fns α ι) (m : Mode) {keys : List (Nat × String)} (hn : (keys.map Prod.snd).Nodup) (st : Step)
    (hk : ∀ id name, st = .temporal id name → (id, name) ∈ keys) {s : Run α ι} {e : Exec α ι} (h : Agree keys s e) :
    Same keys (s.internals.map Prod.fst) (namedStep F m st s) (execStep F m st e) := by
  obtain ⟨hx, ht, hc, hi⟩ := h
  cases st with
  | plain id => exact ⟨⟨by show F.plain id s.x = _; rw [hx], ht, hc, hi⟩, rfl⟩
  | random id => exact ⟨⟨by show F.random id _ s.x = _; rw [hx], ht, hc, hi⟩, rfl⟩
  | stateful id => exact ⟨⟨by show F.stateful id _ s.x = _; rw [hx], ht, hc, hi⟩, rfl⟩
  | temporal id name =>
    have hm := hk id name rfl
    have hl := hi _ hm
    rw [namedStep, applyLeaf, execStep, hc]
    dsimp only at hl ⊢
    cases e.check with
    | true => exact rfl
    | false =>
      rw [hl]
      refine ⟨⟨?_, ht, rfl, ?_⟩, keys_assign _ _ _ (by rw [hl]; rfl)⟩
      · show (F.temporal id s.x _).1 = _
        rw [hx]
      · intro k hk'
        show (assign name _ s.internals).lookup k.2 = some (update _ _ _ k)
        rw [lookup_assign, update]
        by_cases he : k.2 = name
        · have : k = (id, name) := nodup_snd hn hk' hm he
          rw [if_pos he, if_pos this, hx]
        · rw [if_neg he, if_neg (by intro h; rw [h] at he; exact he rfl)]
          exact hi k hk'
  | register t =>
    rw [namedStep, applyLeaf, execStep, ht]
    cases (e.tensors.lookup t).isSome with
    | true => exact rfl
    | false => exact ⟨⟨hx, by rw [hx], hc, hi⟩, rfl⟩
  | retrieve id ts =>
    rw [namedStep, applyLeaf, execStep, ht]
    cases lookupAll ts e.tensors with
    | none => exact rfl
    | some vs => exact ⟨⟨rfl, rfl, rfl, hi⟩, rfl⟩

theorem steps_same (F : Fns α ι) (m : Mode) {keys : List (Nat × String)} (hn : (keys.map Prod.snd).Nodup) (steps : List Step) :
    (∀ k ∈ temporalSteps steps, k ∈ keys) → ∀ {s : Run α ι} {e : Exec α ι}, Agree keys s e →
    Same keys (s.internals.map Prod.fst) (chain (namedStep F m) steps s) (exec F m steps e) := by
  induction steps with
  | nil => intro _ s e h; exact ⟨h, rfl⟩
  | cons st steps ih =>
    intro hk s e h
    have h1 := step_same F m hn st (by
      intro id name he
      subst he
      exact hk _ (List.mem_cons_self ..)) h
    have hk' : ∀ k ∈ temporalSteps steps, k ∈ keys := by
      intro k hm
      apply hk
      rw [show st :: steps = [st] ++ steps from rfl, temporalSteps_append]
      exact List.mem_append_right _ hm
    rw [exec, chain, chain]
    cases ha : namedStep F m st s with
    | error x =>
      cases hb : execStep F m st e with
      | error y => rw [ha, hb] at h1; exact h1
      | ok e' => rw [ha, hb] at h1; exact h1.elim
    | ok s' =>
      cases hb : execStep F m st e with
      | error y => rw [ha, hb] at h1; exact h1.elim
      | ok e' =>
        rw [ha, hb] at h1
        have := ih hk' h1.1
        rw [h1.2] at this
        exact this

/-! ### Specifications -/

/-- The registered tensors are as announced. -/
def TensorsOk (Has : α → β → Prop) (tensors : List (String × α)) (T : List (String × β)) : Prop :=
  ∀ t b, T.lookup t = some b → ∃ v, tensors.lookup t = some v ∧ Has v b

/-- Along these steps a tensor as announced by `b` becomes one as announced by `b'`. -/
def Leads (Has : α → β → Prop) (F : Fns α ι) (m : Mode) (steps : List Step) (b b' : β) (T T' : List (String × β)) : Prop :=
  ∀ s s', exec F m steps s = .ok s' → Has s.x b → TensorsOk Has s.tensors T → Has s'.x b' ∧ TensorsOk Has s'.tensors T'

theorem exec_append (F : Fns α ι) (m : Mode) (l l' : List Step) (e : Exec α ι) :
    exec F m (l ++ l') e = match exec F m l e with
      | .error x => .error x
      | .ok e => exec F m l' e := by
  rw [exec, chain_append, exec]
  cases chain (execStep F m) l e <;> rfl

theorem Leads.append {Has : α → β → Prop} {F : Fns α ι} {m : Mode} {l l' : List Step} {b b' b'' : β} {T T' T'' : List (String × β)}
    (h : Leads Has F m l b b' T T') (h' : Leads Has F m l' b' b'' T' T'') : Leads Has F m (l ++ l') b b'' T T'' := by
  intro s s'' hr hx ht
  rw [exec_append] at hr
  cases h1 : exec F m l s with
  | error x => rw [h1] at hr; cases hr
  | ok s' =>
    rw [h1] at hr
    have := h s s' h1 hx ht
    exact h' s' s'' hr this.1 this.2

theorem leads_nil {Has : α → β → Prop} {F : Fns α ι} {m : Mode} (b : β) (T : List (String × β)) : Leads Has F m [] b b T T := by
  intro s s' h hx ht
  injection h with h
  subst h
  exact ⟨hx, ht⟩

theorem lookupAll_length {γ : Type} {ts : List String} {l : List (String × γ)} {vs : List γ} (h : lookupAll ts l = some vs) : vs.length = ts.length := by
  induction ts generalizing vs with
  | nil => injection h with h; subst h; rfl
  | cons t ts ih =>
    rw [lookupAll] at h
    split at h
    · rename_i v vs' _ h2
      injection h with h
      subst h
      rw [List.length_cons, List.length_cons, ih h2]
    · cases h

theorem lookupAll_get {γ : Type} {ts : List String} {l : List (String × γ)} {vs : List γ} (h : lookupAll ts l = some vs) (k : Nat) (v : γ)
    (hv : vs[k]? = some v) : ∃ t, ts[k]? = some t ∧ l.lookup t = some v := by
  induction ts generalizing vs k with
  | nil => injection h with h; subst h; simp at hv
  | cons t ts ih =>
    rw [lookupAll] at h
    split at h
    · rename_i w vs' h1 h2
      injection h with h
      subst h
      cases k with
      | zero =>
        rw [List.getElem?_cons_zero] at hv
        injection hv with hv
        subst hv
        exact ⟨t, rfl, h1⟩
      | succ k =>
        rw [List.getElem?_cons_succ] at hv ⊢
        exact ih h2 k hv
    · cases h

/-- A step of a layer whose specification is `out`. -/
theorem leads_kind {Has : α → β → Prop} {S : SpecFns β} {F : Fns α ι} (m : Mode) (hs : Sound Has S F) (id : Nat) (name : String) (kind : Kind)
    (hk : kind.hasInner = true) (scope : Scope) (b b' : β) (T : List (String × β)) (ho : S.out id b = .ok b') :
    Leads Has F m (kindSteps id name kind scope) b b' T T := by
  intro s s' hr hx ht
  cases kind with
  | register t => cases hk
  | retrieve t => cases hk
  | reuse t => cases hk
  | temporal =>
    rw [kindSteps, exec, chain_single, execStep] at hr
    dsimp only at hr
    split at hr
    · cases hr
    · injection hr with hr
      subst hr
      exact ⟨hs.temporal _ _ _ _ _ ho hx, ht⟩
  | random =>
    rw [kindSteps, exec, chain_single] at hr
    injection hr with hr
    subst hr
    exact ⟨hs.random _ _ _ _ _ ho hx, ht⟩
  | stateful =>
    rw [kindSteps, exec, chain_single] at hr
    injection hr with hr
    subst hr
    exact ⟨hs.stateful _ _ _ _ _ ho hx, ht⟩
  | plain =>
    rw [kindSteps, exec, chain_single] at hr
    injection hr with hr
    subst hr
    exact ⟨hs.plain _ _ _ _ ho hx, ht⟩
  | prep =>
    rw [kindSteps, exec, chain_single] at hr
    injection hr with hr
    subst hr
    exact ⟨hs.plain _ _ _ _ ho hx, ht⟩

/-- Registering a tensor which is not announced in `T`, or which is announced by it now. -/
theorem leads_register {Has : α → β → Prop} {F : Fns α ι} (m : Mode) (t : String) (b : β) (T T' : List (String × β))
    (hT : T' = T ∨ T' = (t, b) :: T) : Leads Has F m [.register t] b b T T' := by
  intro s s' hr hx ht
  rw [exec, chain_single, execStep] at hr
  split at hr
  · cases hr
  · rename_i hn
    injection hr with hr
    subst hr
    refine ⟨hx, ?_⟩
    intro k c hc
    by_cases e : k = t
    · subst e
      refine ⟨s.x, lookup_cons_self _ _ _, ?_⟩
      rcases hT with rfl | rfl
      · obtain ⟨v, hv, -⟩ := ht k c hc
        rw [hv] at hn
        exact absurd rfl hn
      · rw [lookup_cons_self] at hc
        injection hc with hc
        subst hc
        exact hx
    · show ∃ v, ((t, s.x) :: s.tensors).lookup k = some v ∧ Has v c
      rw [lookup_cons_ne _ _ e]
      refine ht k c ?_
      rcases hT with rfl | rfl
      · exact hc
      · rwa [lookup_cons_ne _ _ e] at hc

theorem leads_retrieve {Has : α → β → Prop} {S : SpecFns β} {F : Fns α ι} (m : Mode) (hs : Sound Has S F) (id : Nat) (ts : List String) (b out : β)
    (bs : List β) (T : List (String × β)) (hb : lookupAll ts T = some bs) (ho : S.agg id bs = .ok out) : Leads Has F m [.retrieve id ts] b out T T := by
  intro s s' hr hx ht
  rw [exec, chain_single, execStep] at hr
  split at hr
  · cases hr
  · rename_i vs hv
    injection hr with hr
    subst hr
    refine ⟨hs.retrieve _ _ _ _ ho ?_ ?_, ht⟩
    · rw [lookupAll_length hb, lookupAll_length hv]
    · intro k x c hx hc
      obtain ⟨t, h1, h2⟩ := lookupAll_get hv k x hx
      obtain ⟨t', h1', h2'⟩ := lookupAll_get hb k c hc
      rw [h1] at h1'
      injection h1' with h1'
      subst h1'
      obtain ⟨v, h3, h4⟩ := ht t c h2'
      rw [h2] at h3
      injection h3 with h3
      subst h3
      exact h4

/-- Every layer of the registry leads from its input specification to its output specification. -/
def Announced (Has : α → β → Prop) (F : Fns α ι) (m : Mode) (reg : Reg β) (scope : Scope) : Prop :=
  ∀ l o i, reg.lookup l = some (some o) → o.inp = some i → ∃ steps, scope.lookup l = some steps ∧ ∀ T, Leads Has F m steps i (o.outIs i) T T

theorem announced_leaf {Has : α → β → Prop} {S : SpecFns β} {F : Fns α ι} {m : Mode} (hs : Sound Has S F)
    {reg : Reg β} {scope : Scope} (h : Announced Has F m reg scope) (id : Nat) (name : String) (out : β) (inner : List String)
    (hi : ∀ i, id ≤ i → i < id + inner.length → ∀ b, S.out i b = .ok b) (o : Obj β)
    (steps : List Step) (hg : ∀ i, o.inp = some i → ∀ T, Leads Has F m steps i (o.outIs i) T T) :
    Announced Has F m (register id out inner ((name, some o) :: reg)) ((innerDefs id inner ++ [(name, steps)]) ++ scope) := by
  intro k o' i hk hinp
  by_cases hm : k ∈ inner
  · obtain ⟨j, hj1, hj2, h1, h2⟩ := register_innerDefs out inner id ((name, some o) :: reg) k hm
    rw [h1] at hk
    injection hk with hk
    injection hk with hk
    subst hk
    injection hinp with hinp
    subst hinp
    exact ⟨[.plain j], by rw [lookup_append, lookup_append, h2]; rfl, fun T => leads_kind m hs j k .plain rfl [] out out T (hi j hj1 hj2 out)⟩
  · rw [lookup_register _ _ _ _ _ hm] at hk
    rw [lookup_append, lookup_append, (innerDefs_lookup inner id k).1 hm]
    by_cases hn : k = name
    · subst hn
      rw [lookup_cons_self] at hk
      injection hk with hk
      injection hk with hk
      subst hk
      exact ⟨steps, by rw [lookup_cons_self]; rfl, hg i hinp⟩
    · rw [lookup_cons_ne _ _ hn] at hk
      rw [lookup_cons_ne _ _ hn]
      exact h k o' i hk hinp

theorem announced_fill {Has : α → β → Prop} {F : Fns α ι} {m : Mode} {reg r1 : Reg β} {scope d : Scope} {name : String} {ns : List String}
    (he : Effect ns ((name, none) :: reg) r1) (hd : Defines ns d) (h : Announced Has F m r1 (d ++ scope)) (b : Obj β) (steps : List Step)
    (hg : ∀ i, b.inp = some i → ∀ T, Leads Has F m steps i (b.outIs i) T T) :
    Announced Has F m (fill name b r1) ((d ++ [(name, steps)]) ++ scope) := by
  intro k o i hk hinp
  rw [lookup_fill] at hk
  rw [lookup_append, lookup_append]
  split at hk
  · rename_i hc
    obtain ⟨rfl, hc⟩ := hc
    have hn : k ∉ ns := by
      intro hm
      obtain ⟨o', ho'⟩ := he.2 k hm
      rw [hc] at ho'
      cases ho'
    injection hk with hk
    injection hk with hk
    subst hk
    rw [hd.1 k hn, lookup_cons_self]
    exact ⟨steps, rfl, hg i hinp⟩
  · obtain ⟨steps', h1, h2⟩ := h k o i hk hinp
    refine ⟨steps', ?_, h2⟩
    rw [lookup_append] at h1
    by_cases hm : k ∈ ns
    · obtain ⟨s, hs⟩ := hd.2 k hm
      rw [hs] at h1 ⊢
      exact h1
    · rw [hd.1 k hm] at h1 ⊢
      have hn : k ≠ name := by
        intro e
        subst e
        rw [he.1 k hm, lookup_cons_self] at hk
        cases hk
      rw [lookup_cons_ne _ _ hn]
      exact h1

section
variable [DecidableEq β] {S : SpecFns β}

theorem create_leads {Has : α → β → Prop} {F : Fns α ι} {m : Mode} (hs : Sound Has S F) {id : Nat} {name : String} {kind : Kind} {inner : List String}
    {inp : β} {reg : Reg β} {r : Obj β × Reg β} (h : create S id name kind inner inp reg = .ok r) {scope : Scope}
    (hi : InnerKeep S (.layer id name kind inner)) (hd : Announced Has F m reg scope) :
    (∀ T, Leads Has F m (expand (.layer id name kind inner) scope).1 inp (r.1.outIs inp) T T) ∧
      Announced Has F m r.2 ((expand (.layer id name kind inner) scope).2 ++ scope) := by
  obtain ⟨out, h1, h2, h3, h4, h5⟩ := create_ok h
  have hg : ∀ T, Leads Has F m (kindSteps id name kind scope) inp out T T := by
    intro T
    cases hk : kind.hasInner with
    | true => exact leads_kind m hs id name kind hk scope inp out T (h5 hk)
    | false =>
      cases kind with
      | register t => rw [h4 t rfl]; exact leads_register m t inp T T (.inl rfl)
      | reuse l =>
        obtain ⟨hn, o, ho, hinp, he⟩ := h3 l rfl
        obtain ⟨steps, hsc, hl⟩ := hd l o inp ho hinp
        rw [kindSteps, hsc, he]
        exact hl T
      | retrieve ts => rw [create] at h; cases h
      | _ => cases hk
  refine ⟨fun T => by rw [expand, h1]; exact hg T, ?_⟩
  rw [h2, expand]
  rw [InnerKeep] at hi
  have := announced_leaf hs hd (id + 1) name out (if kind.hasInner then inner else []) (by
    intro i hi1 hi2 b
    cases hk : kind.hasInner with
    | true => rw [hk] at hi2; exact hi hk i (by omega) (by simp at hi2; omega) b
    | false => rw [hk] at hi2; simp at hi2; omega) r.1 (kindSteps id name kind scope) (by
    intro i hinp T
    rw [h1] at hinp ⊢
    injection hinp with hinp
    subst hinp
    exact hg T)
  cases hh : kind.hasInner with
  | true => rw [hh] at this; exact this
  | false => rw [hh] at this; exact this

mutual

theorem blockLayer_leads {Has : α → β → Prop} {F : Fns α ι} {m : Mode} (hs : Sound Has S F) (l : LSpec) (ns : List String) (inp : β) (reg : Reg β)
    (r : Obj β × String × Reg β) (h : blockLayer S l ns inp reg = .ok r) (scope : Scope) (hi : InnerKeep S l) (hd : Announced Has F m reg scope) :
    (∀ T, Leads Has F m (expand l scope).1 inp (r.1.outIs inp) T T) ∧ Announced Has F m r.2.2 ((expand l scope).2 ++ scope) := by
  cases l with
  | list => rw [blockLayer] at h; cases h
  | layer id name kind inner => exact create_leads hs (blockLayer_layer h).1 hi hd
  | block name layers =>
    obtain ⟨os, out, r1, h1, -, -, h3, -, h2⟩ := blockLayer_block h
    rw [InnerKeep] at hi
    have hd' : Announced Has F m ((name, none) :: reg) scope := by
      intro k o i hko hinp
      by_cases e : k = name
      · subst e; rw [lookup_cons_self] at hko; cases hko
      · rw [lookup_cons_ne _ _ e] at hko; exact hd k o i hko hinp
    have ih := blockLayers_leads hs layers _ _ _ _ h1 scope hi hd'
    rw [expand, h3, h2]
    refine ⟨ih.1, announced_fill (blockLayers_effect _ _ _ _ _ h1) (expandAll_defines layers scope) ih.2 _ _ ?_⟩
    intro i hinp T
    injection hinp with hinp
    subst hinp
    exact ih.1 T

theorem blockLayers_leads {Has : α → β → Prop} {F : Fns α ι} {m : Mode} (hs : Sound Has S F) (ls : List LSpec) (ns : List String) (inp : β) (reg : Reg β)
    (r : List (Obj β) × β × Reg β) (h : blockLayers S ls ns inp reg = .ok r) (scope : Scope) (hi : InnerKeepAll S ls)
    (hd : Announced Has F m reg scope) :
    (∀ T, Leads Has F m (expandAll ls scope).1 inp r.2.1 T T) ∧ Announced Has F m r.2.2 ((expandAll ls scope).2 ++ scope) := by
  cases ls with
  | nil =>
    rw [blockLayers] at h
    injection h with h
    rw [← h]
    exact ⟨fun T => leads_nil _ _, hd⟩
  | cons l ls =>
    obtain ⟨o, n, reg1, os, h1, h2, h3⟩ := blockLayers_cons h
    rw [InnerKeepAll] at hi
    have i1 := blockLayer_leads hs l _ _ _ _ h1 scope hi.1 hd
    have i2 := blockLayers_leads hs ls _ _ _ (os, r.2) h2 _ hi.2 i1.2
    rw [expandAll]
    refine ⟨fun T => (i1.1 T).append (i2.1 T), ?_⟩
    rw [List.append_assoc]
    exact i2.2

end

mutual

theorem netLayer_leads {Has : α → β → Prop} {F : Fns α ι} {m : Mode} (hs : Sound Has S F) {invalid : Kind → Bool} (l : LSpec) (st : Build β)
    (q : Obj β × Build β) (h : netLayer S invalid l st = .ok q) (scope : Scope) (hi : InnerKeep S l) (hd : Announced Has F m st.reg scope) :
    Leads Has F m (expand l scope).1 st.out q.2.out st.tensors q.2.tensors ∧ Announced Has F m q.2.reg ((expand l scope).2 ++ scope) := by
  cases l with
  | list specs =>
    obtain ⟨os, h1, h2⟩ := netLayer_list h
    rw [InnerKeep] at hi
    rw [expand]
    exact netLayers_leads hs specs st (os, q.2) h1 scope hi hd
  | layer id name kind inner =>
    obtain ⟨r, h1, h2⟩ := netLayer_layer h
    obtain ⟨-, -, hreg, hout, htens⟩ := added_ok h1
    rw [hreg, hout]
    rcases h2 with ⟨ts, rfl, h2⟩ | ⟨hnr, h2⟩
    · obtain ⟨bs, out, hb, -, -, ho, h3, h4⟩ := retrieve_ok h2
      rcases htens with ⟨t, ht, -⟩ | ⟨-, htens⟩
      · cases ht
      · rw [h4, htens, h3, expand]
        refine ⟨leads_retrieve m hs id ts _ out bs _ hb ho, ?_⟩
        exact announced_leaf hs hd 0 name out [] (by intro i _ h; simp at h) (.leaf id name (.retrieve ts) none out) _ (by intro i hinp; cases hinp)
    · have hc := create_leads hs h2 hi hd
      refine ⟨?_, hc.2⟩
      rcases htens with ⟨t, rfl, -, ht⟩ | ⟨-, ht⟩
      · obtain ⟨out, g1, -, -, g4, -⟩ := create_ok h2
        rw [ht, g1, expand]
        show Leads Has F m [.register t] st.out out st.tensors ((t, out) :: st.tensors)
        rw [g4 t rfl]
        exact leads_register m t _ _ _ (.inr rfl)
      · rw [ht]
        exact hc.1 _
  | block name layers =>
    obtain ⟨reg, h1, h2⟩ := netLayer_block h
    have hb := blockLayer_leads hs _ _ _ _ _ h1 scope hi hd
    rw [h2]
    exact ⟨hb.1 _, hb.2⟩

theorem netLayers_leads {Has : α → β → Prop} {F : Fns α ι} {m : Mode} (hs : Sound Has S F) {invalid : Kind → Bool} (ls : List LSpec) (st : Build β)
    (q : List (Obj β) × Build β) (h : netLayers S invalid ls st = .ok q) (scope : Scope) (hi : InnerKeepAll S ls)
    (hd : Announced Has F m st.reg scope) :
    Leads Has F m (expandAll ls scope).1 st.out q.2.out st.tensors q.2.tensors ∧ Announced Has F m q.2.reg ((expandAll ls scope).2 ++ scope) := by
  cases ls with
  | nil =>
    rw [netLayers] at h
    injection h with h
    rw [← h]
    exact ⟨leads_nil _ _, hd⟩
  | cons l ls =>
    obtain ⟨o, st1, os, h1, h2, h3⟩ := netLayers_cons h
    rw [InnerKeepAll] at hi
    have i1 := netLayer_leads hs l _ _ h1 scope hi.1 hd
    have i2 := netLayers_leads hs ls _ (os, q.2) h2 _ hi.2 i1.2
    rw [expandAll]
    refine ⟨i1.1.append i2.1, ?_⟩
    rw [List.append_assoc]
    exact i2.2

end

end

end Verif.Net
