import Verif.Net.AcceptSpec
import Verif.Net.Effect

/-! # Which networks can be created: lemmas -/

namespace Verif.Net

variable {β : Type} [DecidableEq β] {S : SpecFns β}

theorem announceSteps_append (steps steps' : List Step) (s : β × List (String × β)) :
    announceSteps S (steps ++ steps') s = (announceSteps S steps s).bind (announceSteps S steps') := by
  induction steps generalizing s with
  | nil => rfl
  | cons st steps ih =>
    rw [List.cons_append, announceSteps, announceSteps]
    cases announceStep S st s with
    | none => rfl
    | some s' => exact ih s'

theorem announceSteps_one (st : Step) (s : β × List (String × β)) : announceSteps S [st] s = announceStep S st s := by
  rw [announceSteps]
  cases announceStep S st s <;> rfl

/-- A layer which is neither reused nor retrieves or registers tensors. -/
theorem create_simple (id : Nat) (name : String) (kind : Kind) (inner : List String) (inp : β) (reg : Reg β) (tensors : List (String × β))
    (hr : ∀ l, kind ≠ .reuse l) (h1 : ∀ t, kind ≠ .register t) (h2 : ∀ ts, kind ≠ .retrieve ts) (scope : Scope) :
    match create S id name kind inner inp reg with
    | .ok r => announceSteps S (kindSteps id name kind scope) (inp, tensors) = some (r.1.outIs inp, tensors)
    | .error _ => announceSteps S (kindSteps id name kind scope) (inp, tensors) = none := by
  have key : ∀ st : Step, (st = .plain id ∨ st = .random id ∨ st = .stateful id ∨ st = .temporal id name) →
      announceSteps S [st] (inp, tensors) = (S.out id inp).toOption.map fun b => (b, tensors) := by
    rintro st (rfl | rfl | rfl | rfl) <;> rw [announceSteps_one] <;> rfl
  cases kind with
  | register t => exact (h1 t rfl).elim
  | retrieve ts => exact (h2 ts rfl).elim
  | reuse l => exact (hr l rfl).elim
  | plain => rw [create.eq_def]; dsimp only; rw [kindSteps, key _ (.inl rfl)]; cases S.out id inp <;> rfl
  | prep => rw [create.eq_def]; dsimp only; rw [kindSteps, key _ (.inl rfl)]; cases S.out id inp <;> rfl
  | random => rw [create.eq_def]; dsimp only; rw [kindSteps, key _ (.inr (.inl rfl))]; cases S.out id inp <;> rfl
  | stateful => rw [create.eq_def]; dsimp only; rw [kindSteps, key _ (.inr (.inr (.inl rfl)))]; cases S.out id inp <;> rfl
  | temporal => rw [create.eq_def]; dsimp only; rw [kindSteps, key _ (.inr (.inr (.inr rfl)))]; cases S.out id inp <;> rfl

mutual

theorem block_accept (l : LSpec) (hr : NoReuse l) (scope : Scope) (ns : List String) (inp : β) (reg : Reg β) (tensors : List (String × β)) :
    match blockLayer S l ns inp reg with
    | .ok r => BlockValid l ∧ l.name ∉ ns ∧ r.2.1 = l.name ∧ announceSteps S (expand l scope).1 (inp, tensors) = some (r.1.outIs inp, tensors)
    | .error _ => ¬ BlockValid l ∨ l.name ∈ ns ∨ announceSteps S (expand l scope).1 (inp, tensors) = none := by
  cases l with
  | list specs => rw [blockLayer]; exact .inl id
  | layer id name kind inner =>
    by_cases h1 : ∃ t, kind = .register t
    · obtain ⟨t, rfl⟩ := h1
      rw [blockLayer.eq_def]
      exact .inl fun h => h.1 t rfl
    by_cases h2 : ∃ ts, kind = .retrieve ts
    · obtain ⟨t, rfl⟩ := h2
      rw [blockLayer.eq_def]
      exact .inl fun h => h.2 t rfl
    have h1' : ∀ t, kind ≠ .register t := fun t h => h1 ⟨t, h⟩
    have h2' : ∀ t, kind ≠ .retrieve t := fun t h => h2 ⟨t, h⟩
    have hb : blockLayer S (.layer id name kind inner) ns inp reg = if name ∈ ns then .error .exists_
      else match create S id name kind inner inp reg with
        | .error e => .error e
        | .ok r => .ok (r.1, name, r.2) := by
      rw [blockLayer.eq_def]
      cases kind with
      | register t => exact (h1' t rfl).elim
      | retrieve ts => exact (h2' ts rfl).elim
      | _ => rfl
    rw [hb, expand]
    have hc := create_simple (S := S) id name kind inner inp reg tensors hr h1' h2' scope
    by_cases hn : name ∈ ns
    · rw [if_pos hn]; exact .inr (.inl hn)
    · rw [if_neg hn]
      cases hcr : create S id name kind inner inp reg with
      | error e => rw [hcr] at hc; exact .inr (.inr hc)
      | ok r => rw [hcr] at hc; exact ⟨⟨h1', h2'⟩, hn, rfl, hc⟩
  | block name layers =>
    rw [blockLayer, expand]
    by_cases hn : name ∈ ns
    · rw [if_pos hn]; exact .inr (.inl hn)
    · rw [if_neg hn]
      by_cases he : layers.isEmpty
      · rw [if_pos he]; exact .inl fun h => h.1 (List.isEmpty_iff.mp he)
      · rw [if_neg he]
        have ih := blocks_accept layers hr scope [] inp ((name, none) :: reg) tensors
        cases hb : blockLayers S layers [] inp ((name, none) :: reg) with
        | error e =>
          rw [hb] at ih
          rcases ih with ih | ih | ih
          · exact .inl fun h => ih h.2.2
          · exact .inl fun h => ih ⟨h.2.1, fun n _ hn => by cases hn⟩
          · exact .inr (.inr ih)
        | ok r =>
          rw [hb] at ih
          exact ⟨⟨fun h => he (List.isEmpty_iff.mpr h), ih.2.1, ih.1⟩, hn, rfl, ih.2.2.2⟩

theorem blocks_accept (ls : List LSpec) (hr : NoReuseAll ls) (scope : Scope) (ns : List String) (inp : β) (reg : Reg β) (tensors : List (String × β)) :
    match blockLayers S ls ns inp reg with
    | .ok r => BlockValidAll ls ∧ (ls.map LSpec.name).Nodup ∧ (∀ n ∈ ls.map LSpec.name, n ∉ ns) ∧
        announceSteps S (expandAll ls scope).1 (inp, tensors) = some (r.2.1, tensors)
    | .error _ => ¬ BlockValidAll ls ∨ ¬ ((ls.map LSpec.name).Nodup ∧ ∀ n ∈ ls.map LSpec.name, n ∉ ns) ∨
        announceSteps S (expandAll ls scope).1 (inp, tensors) = none := by
  cases ls with
  | nil => rw [blockLayers]; exact ⟨trivial, List.nodup_nil, (by intro n hn; cases hn), rfl⟩
  | cons l ls =>
    rw [blockLayers, expandAll]
    have ih := block_accept l hr.1 scope ns inp reg tensors
    cases hb : blockLayer S l ns inp reg with
    | error e =>
      rw [hb] at ih
      rcases ih with ih | ih | ih
      · exact .inl fun h => ih h.1
      · exact .inr (.inl fun h => h.2 _ (List.mem_cons_self ..) ih)
      · refine .inr (.inr ?_)
        rw [announceSteps_append, ih]; rfl
    | ok r =>
      rw [hb] at ih
      obtain ⟨g1, g2, g3, g4⟩ := ih
      dsimp only
      have ih' := blocks_accept ls hr.2 ((expand l scope).2 ++ scope) (r.2.1 :: ns) (r.1.outIs inp) r.2.2 tensors
      cases hbs : blockLayers S ls (r.2.1 :: ns) (r.1.outIs inp) r.2.2 with
      | error e =>
        rw [hbs] at ih'
        rcases ih' with ih' | ih' | ih'
        · exact .inl fun h => ih' h.2
        · refine .inr (.inl fun h => ih' ?_)
          rw [List.map_cons, List.nodup_cons] at h
          refine ⟨h.1.2, fun n hn => ?_⟩
          rw [g3, List.mem_cons, not_or]
          exact ⟨fun e => h.1.1 (e ▸ hn), h.2 n (List.mem_cons_of_mem _ hn)⟩
        · refine .inr (.inr ?_)
          rw [announceSteps_append, g4]; exact ih'
      | ok rs =>
        rw [hbs] at ih'
        obtain ⟨k1, k2, k3, k4⟩ := ih'
        rw [g3] at k3
        refine ⟨⟨g1, k1⟩, ?_, ?_, ?_⟩
        · rw [List.map_cons, List.nodup_cons]
          exact ⟨fun h => k3 _ h (List.mem_cons_self ..), k2⟩
        · intro n hn
          rcases List.mem_cons.mp hn with rfl | hn
          · exact g2
          · exact fun h => k3 n hn (List.mem_cons_of_mem _ h)
        · rw [announceSteps_append, g4]; exact k4

end

mutual

theorem net_accept (invalid : Kind → Bool) (l : LSpec) (hr : NoReuse l) (scope : Scope) (st : Build β) :
    match netLayer S invalid l st with
    | .ok r => Valid invalid l ∧ announceSteps S (expand l scope).1 (st.out, st.tensors) = some (r.2.out, r.2.tensors)
    | .error _ => ¬ Valid invalid l ∨ announceSteps S (expand l scope).1 (st.out, st.tensors) = none := by
  cases l with
  | list specs =>
    rw [netLayer, expand]
    have ih := nets_accept invalid specs hr scope st
    cases hb : netLayers S invalid specs st with
    | error e => rw [hb] at ih; exact ih
    | ok r => rw [hb] at ih; exact ih
  | block name layers =>
    rw [netLayer]
    have ih := block_accept (S := S) (.block name layers) hr scope [] st.out st.reg st.tensors
    cases hb : blockLayer S (.block name layers) [] st.out st.reg with
    | error e =>
      rw [hb] at ih
      rcases ih with ih | ih | ih
      · exact .inl ih
      · cases ih
      · exact .inr ih
    | ok r => rw [hb] at ih; exact ⟨ih.1, ih.2.2.2⟩
  | layer id name kind inner =>
    rw [expand]
    by_cases h2 : ∃ ts, kind = .retrieve ts
    · obtain ⟨ts, rfl⟩ := h2
      rw [netLayer.eq_def]
      dsimp only
      rw [kindSteps, announceSteps_one, announceStep, createRetrieve]
      cases hl : lookupAll ts st.tensors with
      | none => refine .inr ?_; split <;> rfl
      | some bs =>
        dsimp only
        by_cases hc : ts = [] ∨ ¬ ts.Nodup
        · rw [if_pos hc, if_pos hc]; exact .inr rfl
        · rw [if_neg hc, if_neg hc]
          cases ha : S.agg id bs with
          | error e => exact .inr rfl
          | ok out =>
            dsimp only
            rw [added]
            cases hi : invalid (.retrieve ts) with
            | true => exact .inl fun h => by rw [Valid] at h; rw [hi] at h; cases h
            | false => exact ⟨hi, rfl⟩
    · have h2' : ∀ t, kind ≠ .retrieve t := fun t h => h2 ⟨t, h⟩
      have hb : netLayer S invalid (.layer id name kind inner) st = match create S id name kind inner st.out st.reg with
          | .error e => .error e
          | .ok r => added invalid kind st r := by
        rw [netLayer.eq_def]
        cases kind with
        | retrieve ts => exact (h2' ts rfl).elim
        | _ => rfl
      rw [hb]
      by_cases h1 : ∃ t, kind = .register t
      · obtain ⟨t, rfl⟩ := h1
        rw [create]
        dsimp only
        rw [added, kindSteps, announceSteps_one, announceStep]
        cases hi : invalid (.register t) with
        | true => exact .inl fun h => by rw [Valid] at h; rw [hi] at h; cases h
        | false =>
          rw [if_neg (by simp)]
          dsimp only
          cases hl : (st.tensors.lookup t).isSome with
          | true => exact .inr rfl
          | false => exact ⟨hi, rfl⟩
      · have h1' : ∀ t, kind ≠ .register t := fun t h => h1 ⟨t, h⟩
        have hc := create_simple (S := S) id name kind inner st.out st.reg st.tensors hr h1' h2' scope
        cases hcr : create S id name kind inner st.out st.reg with
        | error e => rw [hcr] at hc; exact .inr hc
        | ok r =>
          rw [hcr] at hc
          dsimp only
          have ha : added invalid kind st r = if invalid kind then .error .type else .ok (r.1, ⟨r.2, r.1.outIs st.out, st.tensors⟩) := by
            rw [added]
            cases kind with
            | register t => exact (h1' t rfl).elim
            | _ => rfl
          rw [ha]
          cases hi : invalid kind with
          | true => exact .inl fun h => by rw [Valid] at h; rw [hi] at h; cases h
          | false => exact ⟨hi, hc⟩

theorem nets_accept (invalid : Kind → Bool) (ls : List LSpec) (hr : NoReuseAll ls) (scope : Scope) (st : Build β) :
    match netLayers S invalid ls st with
    | .ok r => ValidAll invalid ls ∧ announceSteps S (expandAll ls scope).1 (st.out, st.tensors) = some (r.2.out, r.2.tensors)
    | .error _ => ¬ ValidAll invalid ls ∨ announceSteps S (expandAll ls scope).1 (st.out, st.tensors) = none := by
  cases ls with
  | nil => rw [netLayers]; exact ⟨trivial, rfl⟩
  | cons l ls =>
    rw [netLayers, expandAll]
    have ih := net_accept invalid l hr.1 scope st
    cases hb : netLayer S invalid l st with
    | error e =>
      rw [hb] at ih
      rcases ih with ih | ih
      · exact .inl fun h => ih h.1
      · refine .inr ?_
        rw [announceSteps_append, ih]; rfl
    | ok r =>
      rw [hb] at ih
      dsimp only
      have ih' := nets_accept invalid ls hr.2 ((expand l scope).2 ++ scope) r.2
      cases hbs : netLayers S invalid ls r.2 with
      | error e =>
        rw [hbs] at ih'
        rcases ih' with ih' | ih'
        · exact .inl fun h => ih' h.2
        · refine .inr ?_
          rw [announceSteps_append, ih.2]; exact ih'
      | ok rs =>
        rw [hbs] at ih'
        refine ⟨⟨ih.1, ih'.1⟩, ?_⟩
        rw [announceSteps_append, ih.2]; exact ih'.2

end

/-- What the registry knows about a layer just created. -/
theorem created (invalid : Kind → Bool) (a : LSpec) (st st1 : Build β) (o : Obj β) (h : netLayer S invalid a st = .ok (o, st1))
    (ha : Reusable a) :
    st1.reg.lookup a.name = some (some o) ∧ o.inp = some st.out ∧ ∀ b, o.outIs b = st1.out := by
  cases a with
  | list specs => exact ha.elim
  | layer id name kind inner =>
    obtain ⟨r, h1, h2⟩ := netLayer_layer h
    obtain ⟨-, g1, g2, g3, -⟩ := added_ok h1
    rcases h2 with ⟨ts, hk, -⟩ | ⟨-, h2⟩
    · exact (ha.1 ts hk).elim
    · obtain ⟨out, k1, k2, -⟩ := create_ok h2
      dsimp only at g1 g2 g3
      refine ⟨?_, by rw [g1, k1]; rfl, fun b => by rw [g3, g1, k1]; rfl⟩
      rw [g2, k2, lookup_register, g1]
      · exact lookup_cons_self ..
      · show name ∉ _
        split
        · rename_i hi; exact ha.2 hi
        · exact List.not_mem_nil
  | block name layers =>
    obtain ⟨reg, h1, h2⟩ := netLayer_block h
    obtain ⟨os, out, r1, k1, -, -, k4, -, k6⟩ := blockLayer_block h1
    have he := (blockLayers_effect _ _ _ _ _ k1).1 name ha
    dsimp only at h2 k4 k6
    refine ⟨?_, by rw [k4]; rfl, fun b => by rw [h2, k4]; rfl⟩
    rw [h2]
    show reg.lookup name = _
    rw [k6, lookup_fill, if_pos ⟨rfl, he.trans (lookup_cons_self ..)⟩, k4]

/-- The layers which a layer creates for itself are in the registry. -/
theorem inner_created (invalid : Kind → Bool) (id : Nat) (name : String) (kind : Kind) (hk : kind.hasInner = true) (inner : List String) (l : String)
    (hl : l ∈ inner) (st st1 : Build β) (o : Obj β) (h : netLayer S invalid (.layer id name kind inner) st = .ok (o, st1)) :
    ∃ id', st1.reg.lookup l = some (some (.leaf id' l .plain (some st1.out) st1.out)) := by
  have key : ∀ k, (k = kind) → (∃ out, S.out id st.out = .ok out) →
      (match (match S.out id st.out with
        | .error e => .error e
        | .ok out => .ok (Obj.leaf id name k (some st.out) out, register (id + 1) out inner ((name, some (.leaf id name k (some st.out) out)) :: st.reg)) :
          Except NError (Obj β × Reg β)) with
      | .error e => Except.error e
      | .ok r => added invalid k st r) = .ok (o, st1) → (∀ t, k ≠ .register t) →
      ∃ id', st1.reg.lookup l = some (some (.leaf id' l .plain (some st1.out) st1.out)) := by
    rintro k - ⟨out, ho⟩ h hr
    rw [ho] at h
    dsimp only at h
    rw [added] at h
    split at h
    · cases h
    · split at h
      · rename_i t _; exact (hr t rfl).elim
      · injection h with h
        obtain ⟨-, h⟩ := Prod.mk.inj h
        subst h
        exact register_mem out inner _ _ l hl
  rw [netLayer.eq_def] at h
  cases kind <;> first
    | (cases hk; done)
    | (dsimp only at h
       rw [create.eq_def] at h
       dsimp only at h
       cases ho : S.out id st.out with
       | error e => rw [ho] at h; cases h
       | ok out => exact key _ rfl ⟨out, ho⟩ (by rw [ho] at h ⊢; exact h) nofun)

end Verif.Net
