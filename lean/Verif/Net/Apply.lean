import Verif.Net.Refine

/-! # Applying networks -/

namespace Verif.Net

variable {α β ι : Type}

/-! ### The recursion limit -/

theorem chain_mono {σ γ : Type} {f g : γ → σ → Except NError σ} (h : ∀ o s s', f o s = .ok s' → g o s = .ok s') (os : List γ) :
    ∀ s s', chain f os s = .ok s' → chain g os s = .ok s' := by
  induction os with
  | nil => intro s s' h'; exact h'
  | cons o os ih =>
    intro s s' h'
    rw [chain] at h' ⊢
    cases hf : f o s with
    | error e => rw [hf] at h'; cases h'
    | ok s1 =>
      rw [hf] at h'
      rw [h _ _ _ hf]
      exact ih _ _ h'

theorem run_mono (F : Fns α ι) (m : Mode) (R : Reg β) (n : Nat) : ∀ (o : Obj β) (s s' : Run α ι), run F m R n o s = .ok s' →
    run F m R (n + 1) o s = .ok s' := by
  induction n with
  | zero => intro o s s' h; rw [run] at h; cases h
  | succ n ih =>
    intro o s s' h
    cases o with
    | list os => rw [run] at h ⊢; exact chain_mono ih os s s' h
    | block _ os _ _ => rw [run] at h ⊢; exact chain_mono ih os s s' h
    | leaf id name kind inp out =>
      rw [run.eq_def] at h ⊢
      dsimp only at h ⊢
      split at h
      · split at h
        · exact ih _ _ _ h
        · cases h
      · exact h

theorem run_le (F : Fns α ι) (m : Mode) (R : Reg β) {n k : Nat} (hk : n ≤ k) (o : Obj β) (s s' : Run α ι) (h : run F m R n o s = .ok s') :
    run F m R k o s = .ok s' := by
  induction hk with
  | refl => exact h
  | step _ ih => exact run_mono F m R _ o s s' ih

/-- Whatever the limit, a result is that of the steps. -/
theorem Good.result {R : Reg β} {o : Obj β} {steps : List Step} (h : Good R o steps) (F : Fns α ι) (m : Mode) (n : Nat) (s s' : Run α ι)
    (hr : run F m R n o s = .ok s') : chain (namedStep F m) steps s = .ok s' := by
  obtain ⟨N, h⟩ := h
  have := run_le F m R (Nat.le_max_left n N) o s s' hr
  rw [(h _ (Nat.le_max_right n N)).1] at this
  exact this

theorem collect_mono {γ δ : Type} {f g : γ → Except NError (List δ)} (h : ∀ o l, f o = .ok l → g o = .ok l) (os : List γ) :
    ∀ l, collect f os = .ok l → collect g os = .ok l := by
  induction os with
  | nil => intro l h'; exact h'
  | cons o os ih =>
    intro l h'
    rw [collect] at h' ⊢
    cases hf : f o with
    | error e => rw [hf] at h'; cases h'
    | ok a =>
      cases hc : collect f os with
      | error e => rw [hf, hc] at h'; cases h'
      | ok b => rw [hf, hc] at h'; rw [h _ _ hf, ih _ hc]; exact h'

theorem temporals_mono (R : Reg β) (n : Nat) : ∀ (o : Obj β) l, temporals R n o = .ok l → temporals R (n + 1) o = .ok l := by
  induction n with
  | zero => intro o l h; rw [temporals] at h; cases h
  | succ n ih =>
    intro o l h
    cases o with
    | list os => rw [temporals] at h ⊢; exact collect_mono ih os l h
    | block _ os _ _ => rw [temporals] at h ⊢; exact collect_mono ih os l h
    | leaf id name kind inp out =>
      rw [temporals.eq_def] at h ⊢
      dsimp only at h ⊢
      split at h
      · exact h
      · split at h
        · exact ih _ _ h
        · cases h
      · exact h

theorem Good.temporalSteps_eq {R : Reg β} {o : Obj β} {steps : List Step} (h : Good R o steps) (n : Nat) (l : List (Nat × String))
    (hr : temporals R n o = .ok l) : l = temporalSteps steps := by
  obtain ⟨N, h⟩ := h
  have : temporals R (max n N) o = .ok l := by
    have hk : n ≤ max n N := Nat.le_max_left n N
    revert hk
    generalize max n N = k
    intro hk
    induction hk with
    | refl => exact hr
    | step _ ih => exact temporals_mono R _ o l ih
  rw [(h _ (Nat.le_max_right n N)).2] at this
  injection this with this
  exact this.symm

/-! ### Networks -/

section
variable [DecidableEq β] {S : SpecFns β}

theorem network_ok {l : LSpec} {inputs : Inputs β} {outs : Option (List String)} {reg : Reg β} {r : Network β × Reg β}
    (h : network S l inputs outs reg = .ok r) :
    ∃ st : Build β, netLayer S netInvalid l ⟨reg, inputs.value, inputs.tensors⟩ = .ok (r.1.layers, st) ∧ r.1 = ⟨r.1.layers, st.out, st.tensors, none⟩ ∧ r.2 = st.reg := by
  unfold network at h
  split at h
  · cases h
  · rename_i q hq
    injection h with h
    subst h
    exact ⟨q.2, hq, rfl, rfl⟩

theorem networks_cons {p : LSpec × Inputs β} {ps : List (LSpec × Inputs β)} {reg : Reg β} {r : List (Network β) × Reg β}
    (h : networks S (p :: ps) reg = .ok r) :
    ∃ n reg1 ns, network S p.1 p.2 none reg = .ok (n, reg1) ∧ networks S ps reg1 = .ok (ns, r.2) ∧ r.1 = n :: ns := by
  rw [networks] at h
  split at h
  · cases h
  · rename_i r1 h1
    split at h
    · cases h
    · rename_i r2 h2
      injection h with h
      subst h
      exact ⟨r1.1, r1.2, r2.1, h1, h2, rfl⟩

theorem network_effect {l : LSpec} {inputs : Inputs β} {outs : Option (List String)} {reg : Reg β} {r : Network β × Reg β}
    (h : network S l inputs outs reg = .ok r) : Effect (names l) reg r.2 := by
  obtain ⟨st, h1, -, h3⟩ := network_ok h
  rw [h3]
  exact netLayer_effect l _ _ h1

theorem networks_effect (ps : List (LSpec × Inputs β)) : ∀ (reg : Reg β) (r : List (Network β) × Reg β), networks S ps reg = .ok r →
    Effect (namesAll (ps.map Prod.fst)) reg r.2 := by
  induction ps with
  | nil => intro reg r h; injection h with h; subst h; exact effect_nil _
  | cons p ps ih =>
    intro reg r h
    obtain ⟨n, reg1, ns, h1, h2, -⟩ := networks_cons h
    rw [List.map_cons, namesAll]
    exact (network_effect h1).trans (ih _ (ns, r.2) h2)

/-- Every network carries out its steps, and its specification is that of the steps. -/
theorem networks_steps {R : Reg β} (ps : List (LSpec × Inputs β)) : ∀ (reg : Reg β) (r : List (Network β) × Reg β), networks S ps reg = .ok r →
    ∀ (after : List String) (scope : Scope), StableAll (ps.map Prod.fst) after → Described R reg scope → Keeps r.2 R after →
    ∀ (i : Nat) n steps, r.1[i]? = some n → (stepsOf (ps.map Prod.fst) scope)[i]? = some steps → Good R n.layers steps ∧ n.outputs = none := by
  induction ps with
  | nil => intro reg r h after scope _ _ _ i n steps _ hs; simp [stepsOf] at hs
  | cons p ps ih =>
    intro reg r h after scope hst hd hk i n steps hn hs
    obtain ⟨n1, reg1, ns, h1, h2, h3⟩ := networks_cons h
    rw [List.map_cons, StableAll] at hst
    obtain ⟨st, g1, g2, g3⟩ := network_ok h1
    have he := networks_effect ps _ (ns, r.2) h2
    dsimp only at g3
    subst g3
    have i1 := netLayer_steps p.1 _ _ g1 _ scope hst.1 hd (Keeps.earlier hk he)
    rw [List.map_cons, stepsOf] at hs
    rw [h3] at hn
    cases i with
    | zero =>
      rw [List.getElem?_cons_zero] at hn hs
      injection hn with hn
      injection hs with hs
      subst hn
      subst hs
      exact ⟨i1.1, congrArg Network.outputs g2⟩
    | succ i =>
      rw [List.getElem?_cons_succ] at hn hs
      exact ih st.reg (ns, r.2) h2 after _ hst.2 i1.2 hk i n steps hn hs

theorem networks_leads {Has : α → β → Prop} {F : Fns α ι} {m : Mode} (hsound : Sound Has S F) (ps : List (LSpec × Inputs β)) :
    ∀ (reg : Reg β) (r : List (Network β) × Reg β), networks S ps reg = .ok r → InnerKeepAll S (ps.map Prod.fst) →
    ∀ scope, Announced Has F m reg scope → ∀ (i : Nat) n steps p, r.1[i]? = some n → (stepsOf (ps.map Prod.fst) scope)[i]? = some steps →
      ps[i]? = some p → Leads Has F m steps p.2.value n.out p.2.tensors n.tensors := by
  induction ps with
  | nil => intro reg r h _ scope _ i n steps p _ hs; simp [stepsOf] at hs
  | cons p ps ih =>
    intro reg r h hi scope hd i n steps p' hn hs hp
    obtain ⟨n1, reg1, ns, h1, h2, h3⟩ := networks_cons h
    rw [List.map_cons, InnerKeepAll] at hi
    obtain ⟨st, g1, g2, g3⟩ := network_ok h1
    have i1 := netLayer_leads hsound p.1 _ _ g1 scope hi.1 hd
    rw [List.map_cons, stepsOf] at hs
    rw [h3] at hn
    cases i with
    | zero =>
      rw [List.getElem?_cons_zero] at hn hs hp
      injection hn with hn
      injection hs with hs
      injection hp with hp
      subst hn
      subst hs
      subst hp
      have e1 : n1.out = st.out := congrArg Network.out g2
      have e2 : n1.tensors = st.tensors := congrArg Network.tensors g2
      rw [e1, e2]
      exact i1.1
    | succ i =>
      rw [List.getElem?_cons_succ] at hn hs hp
      refine ih reg1 (ns, r.2) h2 hi.2 _ ?_ i n steps p' hn hs hp
      dsimp only at g3
      rw [g3]
      exact i1.2

end

/-- The tensors of a successful application. -/
theorem apply_ok {F : Fns α ι} {m : Mode} {limit : Nat} {R : Reg β} {n : Network β} {inputs : Inputs α} {internals : List (String × ι)}
    {r : α × List (String × α) × List (String × ι)} (h : n.apply F m limit R inputs internals = .ok r) :
    ∃ s, run F m R limit n.layers (begin inputs internals) = .ok s ∧ r.1 = s.x ∧ chosen n.outputs s.tensors = .ok r.2.1 ∧ r.2.2 = s.internals := by
  unfold Network.apply at h
  split at h
  · cases h
  · rename_i s hs
    split at h
    · cases h
    · rename_i ts ht
      injection h with h
      subst h
      exact ⟨s, hs, rfl, ht, rfl⟩

theorem internalsSpec_ok {limit : Nat} {R : Reg β} {n : Network β} {ts : List (Nat × String)} (h : n.internalsSpec limit R = .ok ts) :
    temporals R limit n.layers = .ok ts ∧ (ts.map Prod.snd).Nodup := by
  unfold Network.internalsSpec at h
  split at h
  · cases h
  · rename_i ts' ht
    split at h
    · rename_i hn
      injection h with h
      subst h
      exact ⟨ht, hn⟩
    · cases h

/-- Registered tensors stay. -/
theorem exec_tensors (F : Fns α ι) (m : Mode) (steps : List Step) : ∀ (e e' : Exec α ι), exec F m steps e = .ok e' →
    ∀ t v, e.tensors.lookup t = some v → e'.tensors.lookup t = some v := by
  induction steps with
  | nil => intro e e' h t v hv; injection h with h; subst h; exact hv
  | cons st steps ih =>
    intro e e' h t v hv
    rw [exec, chain] at h
    split at h
    · cases h
    · rename_i e1 h1
      refine ih e1 e' h t v ?_
      cases st with
      | plain id => injection h1 with h1; subst h1; exact hv
      | random id => injection h1 with h1; subst h1; exact hv
      | stateful id => injection h1 with h1; subst h1; exact hv
      | temporal id name =>
        rw [execStep] at h1
        split at h1
        · cases h1
        · injection h1 with h1; subst h1; exact hv
      | register t' =>
        rw [execStep] at h1
        split at h1
        · cases h1
        · rename_i hn
          injection h1 with h1
          subst h1
          have : t ≠ t' := by
            intro e
            subst e
            rw [hv] at hn
            exact hn rfl
          show ((t', e.x) :: e.tensors).lookup t = some v
          rw [lookup_cons_ne _ _ this, hv]
      | retrieve id ts =>
        rw [execStep] at h1
        split at h1
        · cases h1
        · injection h1 with h1; subst h1; exact hv

end Verif.Net
