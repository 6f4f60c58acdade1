import Verif.Wrap.Spec

/-!
# Lemmas about dictionaries of the optimizer wrapper
-/

namespace Verif.Wrap

theorem has_iff (l : Entries) (k : String) (v : Value) : Has l k v ↔ l.lookup k = some v := by
  induction l with
  | nil => exact ⟨nofun, nofun⟩
  | cons e l ih =>
    obtain ⟨k', v'⟩ := e
    rw [List.lookup_cons]
    by_cases h : k = k'
    · subst h
      rw [beq_self_eq_true]
      constructor
      · intro hh
        cases hh with
        | here => rfl
        | there hne _ => exact absurd rfl hne
      · intro hh
        have hv : v' = v := Option.some.inj hh
        subst hv
        exact Has.here _ _ _
    · rw [beq_eq_false_iff_ne.2 h]
      constructor
      · intro hh
        cases hh with
        | here => exact absurd rfl h
        | there _ hl => exact ih.1 hl
      · intro hh
        exact Has.there h (ih.2 hh)

theorem lacks_iff (l : Entries) (k : String) : Lacks l k ↔ l.lookup k = none := by
  unfold Lacks
  induction l with
  | nil => exact ⟨fun _ => rfl, fun _ e he => absurd he List.not_mem_nil⟩
  | cons e l ih =>
    obtain ⟨k', v'⟩ := e
    rw [List.lookup_cons]
    by_cases h : k = k'
    · subst h
      rw [beq_self_eq_true]
      exact ⟨fun hh => absurd rfl (hh (k, v') List.mem_cons_self), nofun⟩
    · rw [beq_eq_false_iff_ne.2 h]
      refine Iff.trans ?_ ih
      constructor
      · intro hh e he
        exact hh e (List.mem_cons_of_mem _ he)
      · intro hh e he
        rcases List.mem_cons.1 he with he | he
        · rw [he]
          exact fun hk => h hk.symm
        · exact hh e he

theorem lookup_put (key : String) (value : Value) (d : Entries) (k : String) :
    (put key value d).lookup k = if k = key then some value else d.lookup k := by
  induction d with
  | nil =>
    show List.lookup k [(key, value)] = _
    rw [List.lookup_cons]
    by_cases h : k = key
    · rw [if_pos h, h, beq_self_eq_true]
    · rw [if_neg h, beq_eq_false_iff_ne.2 h]
  | cons e d ih =>
    obtain ⟨k', v'⟩ := e
    unfold put
    by_cases h' : k' = key
    · rw [if_pos h', List.lookup_cons, List.lookup_cons]
      by_cases h : k = key
      · rw [if_pos h, h, h', beq_self_eq_true]
      · rw [if_neg h, beq_eq_false_iff_ne.2 (fun hk => h (hk.trans h'))]
    · rw [if_neg h', List.lookup_cons, List.lookup_cons, ih]
      by_cases h : k = key
      · rw [if_pos h, if_pos h, beq_eq_false_iff_ne.2 (fun hk => h' (hk.symm.trans h))]
      · rw [if_neg h, if_neg h]

theorem lookup_update (d l : Entries) (k : String) (hl : (l.map (·.1)).Nodup) :
    (update d l).lookup k = (l.lookup k).or (d.lookup k) := by
  induction l generalizing d with
  | nil => rfl
  | cons e l ih =>
    obtain ⟨k', v'⟩ := e
    have hn := List.nodup_cons.1 hl
    show (update (put k' v' d) l).lookup k = _
    rw [ih _ hn.2, lookup_put, List.lookup_cons]
    by_cases h : k = k'
    · rw [if_pos h, h, beq_self_eq_true]
      have : l.lookup k' = none := by
        refine (lacks_iff l k').1 fun e he hk => hn.1 ?_
        rw [← hk]
        exact List.mem_map.2 ⟨e, he, rfl⟩
      rw [this]
      rfl
    · rw [if_neg h, beq_eq_false_iff_ne.2 h]

theorem lookup_withRate_dict (d : Entries) (rate : Value) (k : String) :
    (withRate (.dict d) rate).lookup k =
      if k = "learning_rate" then some ((d.lookup "learning_rate").getD rate) else d.lookup k := by
  unfold withRate
  dsimp only
  cases hd : d.lookup "learning_rate" with
  | none =>
    rw [if_pos (show (none : Option Value).isNone = true from rfl), lookup_put]
    rfl
  | some w =>
    rw [if_neg (show ¬(some w).isNone = true from Bool.false_ne_true)]
    by_cases h : k = "learning_rate"
    · rw [if_pos h, h, hd]
      rfl
    · rw [if_neg h]

theorem lookup_withRate_other (v rate : Value) (k : String) :
    (withRate (.other v) rate).lookup k = if k = "type" then some v else if k = "learning_rate" then some rate else none := by
  unfold withRate
  dsimp only
  rw [List.lookup_cons, List.lookup_cons, List.lookup_nil]
  by_cases h : k = "type"
  · rw [if_pos h, h, beq_self_eq_true]
  · rw [if_neg h, beq_eq_false_iff_ne.2 h]
    by_cases h' : k = "learning_rate"
    · rw [if_pos h', h', beq_self_eq_true]
    · rw [if_neg h', beq_eq_false_iff_ne.2 h']

theorem specified (g : Given) (a : Arguments) (hf : (a.further.map (·.1)).Nodup) : Specified g a (inner g a) := by
  refine ⟨?_, ?_, ?_, ?_, ?_, ?_⟩
  · intro k v h
    rw [has_iff] at h ⊢
    unfold inner
    rw [lookup_update _ _ _ hf, h]
    rfl
  · intro d k v hg hl hd
    subst hg
    rw [has_iff] at hd ⊢
    rw [lacks_iff] at hl
    unfold inner
    rw [lookup_update _ _ _ hf, hl, lookup_withRate_dict]
    by_cases h : k = "learning_rate"
    · rw [if_pos h, ← h, hd]
      rfl
    · rw [if_neg h]
      exact hd
  · intro d hg hl hd
    subst hg
    rw [has_iff]
    rw [lacks_iff] at hl hd
    unfold inner
    rw [lookup_update _ _ _ hf, hl, lookup_withRate_dict, if_pos rfl, hd]
    rfl
  · intro v hg hl
    subst hg
    rw [has_iff]
    rw [lacks_iff] at hl
    unfold inner
    rw [lookup_update _ _ _ hf, hl, lookup_withRate_other, if_pos rfl]
    rfl
  · intro v hg hl
    subst hg
    rw [has_iff]
    rw [lacks_iff] at hl
    unfold inner
    rw [lookup_update _ _ _ hf, hl, lookup_withRate_other, if_neg (by decide), if_pos rfl]
    rfl
  · intro k v h
    rw [has_iff] at h
    unfold inner at h
    rw [lookup_update _ _ _ hf] at h
    cases hl : a.further.lookup k with
    | some w =>
      rw [hl] at h
      have : w = v := Option.some.inj h
      rw [this] at hl
      exact .inl ((has_iff _ _ _).2 hl)
    | none =>
      rw [hl] at h
      change (withRate g a.rate).lookup k = some v at h
      refine .inr ?_
      cases g with
      | dict d =>
        rw [lookup_withRate_dict] at h
        by_cases hk : k = "learning_rate"
        · rw [if_pos hk] at h
          cases hd : d.lookup "learning_rate" with
          | none =>
            rw [hd] at h
            exact .inr (.inl ⟨hk, (Option.some.inj h).symm⟩)
          | some w =>
            rw [hd] at h
            refine .inl ⟨d, rfl, (has_iff _ _ _).2 ?_⟩
            rw [hk, hd]
            exact h
        · rw [if_neg hk] at h
          exact .inl ⟨d, rfl, (has_iff _ _ _).2 h⟩
      | other w =>
        rw [lookup_withRate_other] at h
        by_cases hk : k = "type"
        · rw [if_pos hk] at h
          rw [Option.some.inj h]
          exact .inr (.inr ⟨hk, rfl⟩)
        · rw [if_neg hk] at h
          by_cases hk' : k = "learning_rate"
          · rw [if_pos hk'] at h
            exact .inr (.inl ⟨hk', (Option.some.inj h).symm⟩)
          · rw [if_neg hk'] at h
            cases h

theorem addDoublecheck_nested {a : Arguments} {t : Tree} {ms : List Modifier} {e : Entries} (h : Nested t ms e) :
    ∃ d, Part (a.doublecheck = true) .doublecheck d ∧ Nested (addDoublecheck a t) (d ++ ms) e := by
  unfold addDoublecheck
  by_cases hd : a.doublecheck = true
  · rw [if_pos hd]
    exact ⟨[.doublecheck], ⟨fun _ => rfl, fun hn => absurd hd hn⟩, h.doublecheck⟩
  · rw [if_neg hd]
    exact ⟨[], ⟨fun hp => absurd hp hd, fun _ => rfl⟩, h⟩

theorem addLinesearch_nested {a : Arguments} (ha : Documented a) {t : Tree} {ms : List Modifier} {e : Entries} (h : Nested t ms e) :
    ∃ d, Part (a.iterations ≠ .int 0) (.linesearch a.iterations) d ∧ Nested (addLinesearch a t) (d ++ ms) e := by
  unfold addLinesearch
  rcases ha.iterations with ⟨s, hs⟩ | ⟨z, hz, hp⟩
  · rw [hs]
    exact ⟨[.linesearch (.spec s)], ⟨fun _ => rfl, fun hn => absurd nofun hn⟩, h.linesearch _⟩
  · rw [hz]
    show ∃ d, _ ∧ Nested (if 0 < z then _ else _) (d ++ ms) e
    by_cases hzz : 0 < z
    · rw [if_pos hzz]
      refine ⟨[.linesearch (.int z)], ⟨fun _ => rfl, fun hn => absurd ?_ hn⟩, h.linesearch _⟩
      intro heq
      have := Value.int.inj heq
      omega
    · rw [if_neg hzz]
      have hz0 : z = 0 := by omega
      rw [hz0]
      exact ⟨[], ⟨fun hn => absurd rfl hn, fun _ => rfl⟩, h⟩

theorem addSubsampling_nested {a : Arguments} {t : Tree} {ms : List Modifier} {e : Entries} (h : Nested t ms e) :
    ∃ d, Part (a.fraction ≠ .float 1) (.subsampling a.fraction) d ∧ Nested (addSubsampling a t) (d ++ ms) e := by
  unfold addSubsampling
  by_cases hd : a.fraction = .float 1
  · rw [if_pos hd]
    exact ⟨[], ⟨fun hn => absurd hd hn, fun _ => rfl⟩, h⟩
  · rw [if_neg hd]
    exact ⟨[.subsampling a.fraction], ⟨fun _ => rfl, fun hn => absurd hd hn⟩, h.subsampling _⟩

theorem addMulti_nested {a : Arguments} (ha : Documented a) {t : Tree} {ms : List Modifier} {e : Entries} (h : Nested t ms e) :
    ∃ d, Part (a.steps ≠ .int 1) (.multi a.steps) d ∧ Nested (addMulti a t) (d ++ ms) e := by
  unfold addMulti
  rcases ha.steps with ⟨s, hs⟩ | ⟨z, hz, hp⟩
  · rw [hs]
    exact ⟨[.multi (.spec s)], ⟨fun _ => rfl, fun hn => absurd nofun hn⟩, h.multi _⟩
  · rw [hz]
    show ∃ d, _ ∧ Nested (if 1 < z then _ else _) (d ++ ms) e
    by_cases hzz : 1 < z
    · rw [if_pos hzz]
      refine ⟨[.multi (.int z)], ⟨fun _ => rfl, fun hn => absurd ?_ hn⟩, h.multi _⟩
      intro heq
      have := Value.int.inj heq
      omega
    · rw [if_neg hzz]
      have hz0 : z = 1 := by omega
      rw [hz0]
      exact ⟨[], ⟨fun hn => absurd rfl hn, fun _ => rfl⟩, h⟩

theorem addClipping_nested {a : Arguments} {t : Tree} {ms : List Modifier} {e : Entries} (h : Nested t ms e) :
    ∃ d, (∀ v, a.clipping = some v → d = [.clipping v]) ∧ (a.clipping = none → d = []) ∧ Nested (addClipping a t) (d ++ ms) e := by
  unfold addClipping
  cases hc : a.clipping with
  | none => exact ⟨[], nofun, fun _ => rfl, h⟩
  | some w => exact ⟨[.clipping w], fun v hv => by rw [Option.some.inj hv], nofun, h.clipping w⟩

theorem wrap_nested (g : Given) (a : Arguments) (ha : Documented a) :
    ∃ t ms, wrap g a = .ok t ∧ Nested t ms (inner g a) ∧ Requested a ms := by
  obtain ⟨d, hd, h1⟩ := addDoublecheck_nested (a := a) (Nested.base (inner g a))
  rw [List.append_nil] at h1
  obtain ⟨l, hl, h2⟩ := addLinesearch_nested ha h1
  obtain ⟨s, hs, h3⟩ := addSubsampling_nested (a := a) h2
  obtain ⟨m, hm, h4⟩ := addMulti_nested ha h3
  obtain ⟨c, hc, hc', h5⟩ := addClipping_nested (a := a) h4
  refine ⟨_, _, ?_, h5, c, m, s, l, d, rfl, hc, hc', hm, hs, hl, hd⟩
  unfold wrap
  rw [if_neg (by rw [ha.deprecated]; exact nofun)]

theorem andThen_ok {x y : Except Err Unit} (hx : x = .ok ()) (hy : y = .ok ()) : andThen x y = .ok () := by
  rw [hx]
  exact hy

theorem checkInt_ok {v : Value} (h : IsSpec v ∨ ∃ z, v = .int z ∧ 1 ≤ z) : checkInt v = .ok () := by
  rcases h with ⟨s, hs⟩ | ⟨z, hz, hp⟩
  · rw [hs]
    rfl
  · rw [hz]
    exact if_neg (by omega)

theorem checkFloat_ok {v : Value} (h : IsSpec v ∨ ∃ x, v = .float x ∧ 0 < x) : checkFloat 0 none v = .ok () := by
  rcases h with ⟨s, hs⟩ | ⟨x, hx, hp⟩
  · rw [hs]
    rfl
  · rw [hx]
    exact if_neg (Rat.not_lt.2 (Rat.le_of_lt hp))

theorem checkFloat_range {v : Value} (h : checkFloat 0 none v = .ok ()) : IsSpec v ∨ ∃ x, v = .float x ∧ 0 ≤ x := by
  cases v with
  | bool b => cases h
  | int z => cases h
  | spec s => exact .inl ⟨s, rfl⟩
  | float x =>
    change (if x < 0 then _ else _) = _ at h
    split at h
    · cases h
    · next hx => exact .inr ⟨x, rfl, Rat.not_lt.1 hx⟩

theorem andThen_inv {x y : Except Err Unit} (h : andThen x y = .ok ()) : x = .ok () ∧ y = .ok () := by
  cases x with
  | error e => cases h
  | ok u => exact ⟨rfl, h⟩

theorem addClipping_ok {a : Arguments} {t : Tree} (h : build (addClipping a t) = .ok ()) :
    (∀ v, a.clipping = some v → IsSpec v ∨ ∃ x, v = .float x ∧ 0 ≤ x) ∧ build t = .ok () := by
  unfold addClipping at h
  cases hc : a.clipping with
  | none =>
    rw [hc] at h
    exact ⟨nofun, h⟩
  | some w =>
    rw [hc] at h
    have := andThen_inv h
    refine ⟨fun v hv => ?_, this.1⟩
    rw [← Option.some.inj hv]
    exact checkFloat_range this.2

theorem addMulti_ok {a : Arguments} {t : Tree} (h : build (addMulti a t) = .ok ()) :
    (∀ x, a.steps ≠ .float x) ∧ build t = .ok () := by
  unfold addMulti at h
  cases hs : a.steps with
  | float x =>
    rw [hs] at h
    cases (andThen_inv h).2
  | spec s =>
    rw [hs] at h
    exact ⟨nofun, (andThen_inv h).1⟩
  | bool b =>
    rw [hs] at h
    exact ⟨nofun, by cases b <;> exact h⟩
  | int z =>
    rw [hs] at h
    refine ⟨nofun, ?_⟩
    dsimp only [Value.int?] at h
    split at h
    · exact (andThen_inv h).1
    · exact h

theorem addLinesearch_ok {a : Arguments} {t : Tree} (h : build (addLinesearch a t) = .ok ()) :
    (∀ x, a.iterations ≠ .float x) ∧ build t = .ok () := by
  unfold addLinesearch at h
  cases hs : a.iterations with
  | float x =>
    rw [hs] at h
    cases (andThen_inv h).2
  | spec s =>
    rw [hs] at h
    exact ⟨nofun, (andThen_inv h).1⟩
  | bool b =>
    rw [hs] at h
    refine ⟨nofun, ?_⟩
    cases b with
    | true => exact (andThen_inv h).1
    | false => exact h
  | int z =>
    rw [hs] at h
    refine ⟨nofun, ?_⟩
    dsimp only [Value.int?] at h
    split at h
    · exact (andThen_inv h).1
    · exact h

theorem addSubsampling_ok {a : Arguments} {t : Tree} (h : build (addSubsampling a t) = .ok ()) :
    (IsSpec a.fraction ∨ (∃ z, a.fraction = .int z ∧ 1 ≤ z) ∨ ∃ x, a.fraction = .float x ∧ 0 ≤ x ∧ x ≤ 1) ∧ build t = .ok () := by
  unfold addSubsampling at h
  by_cases hf : a.fraction = .float 1
  · rw [if_pos hf] at h
    exact ⟨.inr (.inr ⟨1, hf, by decide +kernel, by decide +kernel⟩), h⟩
  · rw [if_neg hf] at h
    have h2 := andThen_inv h
    refine ⟨?_, h2.1⟩
    have h3 := h2.2
    generalize a.fraction = v at h3
    cases v with
    | bool b => cases h3
    | spec s => exact .inl ⟨s, rfl⟩
    | int z =>
      change (if z < 1 then _ else _) = _ at h3
      split at h3
      · cases h3
      · next hz => exact .inr (.inl ⟨z, rfl, by omega⟩)
    | float x =>
      change (if x < 0 then _ else (if 1 < x then _ else _)) = _ at h3
      split at h3
      · cases h3
      · split at h3
        · cases h3
        · next h0 h1 => exact .inr (.inr ⟨x, rfl, Rat.not_lt.1 h0, Rat.not_lt.1 h1⟩)

theorem build_ok {a : Arguments} (ha : Documented a) {e : Entries} (he : construct e = .ok ()) :
    build (addClipping a (addMulti a (addSubsampling a (addLinesearch a (addDoublecheck a (.base e)))))) = .ok () := by
  have h1 : build (addDoublecheck a (.base e)) = .ok () := by
    unfold addDoublecheck
    split <;> exact he
  have h2 : build (addLinesearch a (addDoublecheck a (.base e))) = .ok () := by
    unfold addLinesearch
    rcases ha.iterations with ⟨s, hs⟩ | ⟨z, hz, hp⟩
    · rw [hs]
      exact andThen_ok h1 rfl
    · rw [hz]
      show build (if 0 < z then _ else _) = _
      split
      · exact andThen_ok h1 (checkInt_ok (.inr ⟨z, rfl, by omega⟩))
      · exact h1
  have h3 : build (addSubsampling a (addLinesearch a (addDoublecheck a (.base e)))) = .ok () := by
    unfold addSubsampling
    split
    · exact h2
    · rcases ha.fraction with ⟨s, hs⟩ | ⟨z, hz, hp⟩ | ⟨x, hx, hp, hp'⟩
      · rw [hs]
        exact andThen_ok h2 rfl
      · rw [hz]
        exact andThen_ok h2 (checkInt_ok (.inr ⟨z, rfl, by omega⟩))
      · rw [hx]
        refine andThen_ok h2 ?_
        show (if x < 0 then _ else (if 1 < x then _ else _)) = _
        rw [if_neg (Rat.not_lt.2 (Rat.le_of_lt hp)), if_neg (Rat.not_lt.2 hp')]
  have h4 : build (addMulti a (addSubsampling a (addLinesearch a (addDoublecheck a (.base e))))) = .ok () := by
    unfold addMulti
    rcases ha.steps with ⟨s, hs⟩ | ⟨z, hz, hp⟩
    · rw [hs]
      exact andThen_ok h3 rfl
    · rw [hz]
      show build (if 1 < z then _ else _) = _
      split
      · exact andThen_ok h3 (checkInt_ok (.inr ⟨z, rfl, hp⟩))
      · exact h3
  unfold addClipping
  cases hc : a.clipping with
  | none => exact h4
  | some v => exact andThen_ok h4 (checkFloat_ok (ha.clipping v hc))

theorem build_base_error {t : Tree} {ms : List Modifier} {e : Entries} (h : Nested t ms e) {err : Err} (he : construct e = .error err) :
    build t = .error err := by
  induction h with
  | base => exact he
  | doublecheck _ ih => exact ih he
  | linesearch _ _ ih => unfold build; rw [ih he]; rfl
  | subsampling _ _ ih => unfold build; rw [ih he]; rfl
  | multi _ _ ih => unfold build; rw [ih he]; rfl
  | clipping _ _ ih => unfold build; rw [ih he]; rfl

theorem accepts_others {sig : Signature} {keys : List String} (ho : sig.others = true) (h : ∀ k ∈ sig.required, k ∈ keys) :
    sig.accepts keys = true := by
  unfold Signature.accepts
  rw [ho, Bool.true_or, Bool.and_true]
  refine List.all_eq_true.2 fun k hk => ?_
  rw [List.contains_iff_mem]
  exact h k hk

theorem key_mem {e : Entries} {k : String} {v : Value} (h : e.lookup k = some v) (hk : k ≠ "type") :
    k ∈ (e.map (·.1)).filter (fun k => k != "type") := by
  refine List.mem_filter.2 ⟨?_, bne_iff_ne.2 hk⟩
  refine Decidable.by_contra fun hn => ?_
  have : e.lookup k = none := (lacks_iff e k).1 fun x hx hxk => hn (List.mem_map.2 ⟨x, hx, hxk⟩)
  rw [this] at h
  cases h

theorem signature_tf {s : String} (hs : s ∈ ["adadelta", "adagrad", "adam", "adamax", "ftrl", "nadam", "rmsprop", "sgd"]) :
    signature s = some ⟨["learning_rate"], ["gradient_norm_clipping"], true⟩ := by
  unfold signature
  rw [if_pos hs]

theorem construct_of {e : Entries} {s : String} {sig : Signature} (ht : e.lookup "type" = some (.spec s)) (hs : signature s = some sig) :
    construct e = if sig.accepts ((e.map (·.1)).filter (fun k => k != "type")) then
      match e.lookup "learning_rate" with
      | none => .ok ()
      | some v => checkFloat 0 none v
    else .error .arguments := by
  unfold construct typeName
  rw [ht]
  dsimp only [Option.bind]
  rw [hs]
  rfl

theorem construct_tf {e : Entries} {s : String} {v : Value} (ht : e.lookup "type" = some (.spec s))
    (hs : s ∈ ["adadelta", "adagrad", "adam", "adamax", "ftrl", "nadam", "rmsprop", "sgd"])
    (hv : e.lookup "learning_rate" = some v) (hc : checkFloat 0 none v = .ok ()) : construct e = .ok () := by
  rw [construct_of ht (signature_tf hs), if_pos, hv]
  · exact hc
  · refine accepts_others rfl fun k hk => ?_
    rw [List.mem_singleton.1 hk]
    exact key_mem hv (by decide)

theorem construct_rate {e : Entries} (hc : construct e = .ok ()) {v : Value} (hv : e.lookup "learning_rate" = some v) :
    IsSpec v ∨ ∃ x, v = .float x ∧ 0 ≤ x := by
  unfold construct at hc
  split at hc
  · cases hc
  · split at hc
    · rw [hv] at hc
      exact checkFloat_range hc
    · cases hc

theorem inner_rate (g : Given) (a : Arguments) (hf : (a.further.map (·.1)).Nodup) :
    ∃ v, (inner g a).lookup "learning_rate" = some v := by
  unfold inner
  rw [lookup_update _ _ _ hf]
  have : ∃ v, (withRate g a.rate).lookup "learning_rate" = some v := by
    cases g with
    | dict d =>
      rw [lookup_withRate_dict, if_pos rfl]
      exact ⟨_, rfl⟩
    | other w =>
      rw [lookup_withRate_other, if_neg (by decide), if_pos rfl]
      exact ⟨_, rfl⟩
  obtain ⟨v, hv⟩ := this
  rw [hv]
  cases a.further.lookup "learning_rate" with
  | none => exact ⟨v, rfl⟩
  | some w => exact ⟨w, rfl⟩

theorem accepts_not {sig : Signature} {keys : List String} (ho : sig.others = false) {k : String} (hk : k ∈ keys)
    (hr : k ∉ sig.required) (hp : k ∉ sig.optional) : sig.accepts keys = false := by
  refine Bool.eq_false_iff.2 fun h => ?_
  unfold Signature.accepts at h
  rw [ho, Bool.false_or, Bool.and_eq_true] at h
  have := List.all_eq_true.1 h.2 k hk
  rw [Bool.or_eq_true, List.contains_iff_mem, List.contains_iff_mem] at this
  exact this.elim hr hp

theorem construct_unrated {e : Entries} {s : String} (ht : e.lookup "type" = some (.spec s)) (hs : Unrated s)
    (hv : ∃ v, e.lookup "learning_rate" = some v) : construct e = .error .arguments := by
  obtain ⟨v, hv⟩ := hv
  have hk := key_mem hv (by decide)
  have key : ∀ sig, signature s = some sig → sig.others = false → "learning_rate" ∉ sig.required → "learning_rate" ∉ sig.optional →
      construct e = .error .arguments := fun sig hsig ho hr hp => by
    rw [construct_of ht hsig, accepts_not ho hk hr hp]
    rfl
  unfold Unrated at hs
  rcases List.mem_cons.1 hs with rfl | hs
  · exact key ⟨["optimizer1", "optimizer2"], [], false⟩ (by decide) rfl (by decide) (by decide)
  rcases List.mem_cons.1 hs with rfl | hs
  · exact key ⟨["optimizer", "threshold"], ["mode"], false⟩ (by decide) rfl (by decide) (by decide)
  rcases List.mem_cons.1 hs with rfl | hs
  · exact key ⟨["optimizer"], [], false⟩ (by decide) rfl (by decide) (by decide)
  rcases List.mem_cons.1 hs with rfl | hs
  · exact key ⟨["optimizer"], [], false⟩ (by decide) rfl (by decide) (by decide)
  rcases List.mem_cons.1 hs with rfl | hs
  · exact key ⟨["optimizer", "max_iterations"], ["backtracking_factor"], false⟩ (by decide) rfl (by decide) (by decide)
  rcases List.mem_cons.1 hs with rfl | hs
  · exact key ⟨["optimizer", "num_steps"], [], false⟩ (by decide) rfl (by decide) (by decide)
  rcases List.mem_cons.1 hs with rfl | hs
  · exact key ⟨["optimizer", "fraction"], [], false⟩ (by decide) rfl (by decide) (by decide)
  rcases List.mem_cons.1 hs with rfl | hs
  · exact key ⟨["update_weight"], ["sync_frequency"], false⟩ (by decide) rfl (by decide) (by decide)
  · cases hs

theorem construct_unknown {e : Entries} {s : String} (ht : e.lookup "type" = some (.spec s)) (hs : ¬Rated s) (hu : ¬Unrated s)
    (hw : s ≠ "optimizer_wrapper") (htf : s ≠ "tf_optimizer") : construct e = .error .module_ := by
  have hu' : ∀ x ∈ ["plus", "clipping_step", "doublecheck_step", "global_optimizer", "linesearch_step", "multi_step",
      "subsampling_step", "synchronization"], s ≠ x := fun x hx h => hu (by rw [h]; exact hx)
  have hsig : signature s = none := by
    unfold signature
    rw [if_neg (fun h => hs (.tf s h)), if_neg htf, if_neg (fun h => hs (by rw [h]; exact .evolutionary)), if_neg (fun h => hs (by rw [h]; exact .natural)), if_neg hw,
      if_neg (hu' _ (by decide)), if_neg (hu' _ (by decide)), if_neg, if_neg (hu' _ (by decide)), if_neg (hu' _ (by decide)),
      if_neg (hu' _ (by decide)), if_neg (hu' _ (by decide))]
    intro h
    rcases List.mem_cons.1 h with h | h
    · exact hu' _ (by decide) h
    · exact hu' _ (by decide) (List.mem_singleton.1 h)
  unfold construct typeName
  rw [ht]
  dsimp only [Option.bind]
  rw [hsig]

/-- Specifications without optimizer lead to a dictionary without. -/
theorem inner_lacks (g : Given) (a : Arguments) (hf : (a.further.map (·.1)).Nodup) (ho : Lacks a.further "optimizer")
    (hg : g = .other (.spec "tf_optimizer") ∨ g = .other (.spec "optimizer_wrapper") ∨
      ∃ d, g = .dict d ∧ Lacks d "optimizer" ∧
        (Lacks d "type" ∨ Has d "type" (.spec "tf_optimizer") ∨ Has d "type" (.spec "optimizer_wrapper"))) :
    (inner g a).lookup "optimizer" = none := by
  unfold inner
  rw [lookup_update _ _ _ hf, (lacks_iff _ _).1 ho]
  rcases hg with hg | hg | ⟨d, hg, hd, _⟩
  · rw [hg, lookup_withRate_other, if_neg (by decide), if_neg (by decide)]; rfl
  · rw [hg, lookup_withRate_other, if_neg (by decide), if_neg (by decide)]; rfl
  · rw [hg, lookup_withRate_dict, if_neg (by decide), (lacks_iff _ _).1 hd]; rfl

theorem inner_type (g : Given) (a : Arguments) (hf : (a.further.map (·.1)).Nodup) (hl : Lacks a.further "type")
    (hg : g = .other (.spec "tf_optimizer") ∨ g = .other (.spec "optimizer_wrapper") ∨
      ∃ d, g = .dict d ∧ Lacks d "optimizer" ∧
        (Lacks d "type" ∨ Has d "type" (.spec "tf_optimizer") ∨ Has d "type" (.spec "optimizer_wrapper"))) :
    (inner g a).lookup "type" = none ∨ (inner g a).lookup "type" = some (.spec "tf_optimizer") ∨
    (inner g a).lookup "type" = some (.spec "optimizer_wrapper") := by
  unfold inner
  rw [lookup_update _ _ _ hf, (lacks_iff _ _).1 hl]
  rcases hg with hg | hg | ⟨d, hg, _, hd⟩
  · rw [hg, lookup_withRate_other, if_pos rfl]; exact .inr (.inl rfl)
  · rw [hg, lookup_withRate_other, if_pos rfl]; exact .inr (.inr rfl)
  · rw [hg, lookup_withRate_dict, if_neg (by decide)]
    rcases hd with hd | hd | hd
    · rw [(lacks_iff _ _).1 hd]; exact .inl rfl
    · rw [(has_iff _ _ _).1 hd]; exact .inr (.inl rfl)
    · rw [(has_iff _ _ _).1 hd]; exact .inr (.inr rfl)

theorem accepts_missing {sig : Signature} {e : Entries} {k : String} (hk : k ∈ sig.required) (he : e.lookup k = none) :
    sig.accepts ((e.map (·.1)).filter (fun k => k != "type")) = false := by
  refine Bool.eq_false_iff.2 fun h => ?_
  unfold Signature.accepts at h
  rw [Bool.and_eq_true] at h
  have := List.all_eq_true.1 h.1 k hk
  rw [List.contains_iff_mem] at this
  obtain ⟨x, hx, hxk⟩ := List.mem_map.1 (List.mem_filter.1 this).1
  exact (lacks_iff _ _).2 he x hx hxk

theorem construct_incomplete {e : Entries} (ho : e.lookup "optimizer" = none)
    (ht : e.lookup "type" = none ∨ e.lookup "type" = some (.spec "tf_optimizer") ∨ e.lookup "type" = some (.spec "optimizer_wrapper")) :
    construct e = .error .arguments := by
  rcases ht with ht | ht | ht
  · unfold construct typeName
    rw [ht]
    change (if Signature.accepts ⟨["optimizer"], ["learning_rate"], true⟩ _ = true then _ else _) = _
    rw [accepts_missing List.mem_cons_self ho]
    rfl
  · rw [construct_of ht rfl, accepts_missing List.mem_cons_self ho]
    rfl
  · rw [construct_of ht rfl, accepts_missing List.mem_cons_self ho]
    rfl

theorem construct_default {e : Entries} {v w : Value} (ht : e.lookup "type" = none) (ho : e.lookup "optimizer" = some v)
    (hw : e.lookup "learning_rate" = some w) (hc : checkFloat 0 none w = .ok ()) : construct e = .ok () := by
  unfold construct typeName
  rw [ht]
  change (if Signature.accepts ⟨["optimizer"], ["learning_rate"], true⟩ _ = true then _ else _) = _
  rw [if_pos, hw]
  · exact hc
  · refine accepts_others rfl fun k hk => ?_
    rw [List.mem_singleton.1 hk]
    exact key_mem ho (by decide)

end Verif.Wrap
