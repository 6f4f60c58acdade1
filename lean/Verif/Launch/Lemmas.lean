import Verif.Launch.Spec

/-! # Lemmas on the creation of runners -/

namespace Verif.Launch

theorem isPrefixOf_iff (w l : List Char) : w.isPrefixOf l = true ↔ ∃ q, l = w ++ q := by
  rw [List.isPrefixOf_iff_prefix]
  exact ⟨fun ⟨q, h⟩ => ⟨q, h.symm⟩, fun ⟨q, h⟩ => ⟨q, h.symm⟩⟩

theorem occurs_iff (w l : List Char) : occurs w l = true ↔ ∃ p q, l = p ++ w ++ q := by
  induction l with
  | nil =>
    simp only [occurs]
    constructor
    · intro h
      exact ⟨[], [], by simpa using (List.isEmpty_iff.mp h).symm⟩
    · rintro ⟨p, q, h⟩
      have h := h.symm
      simp at h
      simp [h.2.1]
  | cons c l ih =>
    simp only [occurs, Bool.or_eq_true]
    constructor
    · rintro (h | h)
      · obtain ⟨q, h⟩ := (isPrefixOf_iff _ _).mp h
        exact ⟨[], q, by simpa using h⟩
      · obtain ⟨p, q, h⟩ := ih.mp h
        exact ⟨c :: p, q, by rw [h]; rfl⟩
    · rintro ⟨p, q, h⟩
      cases p with
      | nil => exact .inl ((isPrefixOf_iff _ _).mpr ⟨q, by simpa using h⟩)
      | cons d p =>
        refine .inr (ih.mpr ⟨p, q, ?_⟩)
        injection h

theorem makeAgent_good {g : Agent} {o : Origin} (h : GoodAgent g o) (n : Int) : makeAgent g n = .ok (o, interactions o n) := by
  cases h with
  | object => rfl
  | dict => rfl
  | load => rfl
  | text s hs =>
    have : occurs "directory".toList s = false := by
      cases e : occurs "directory".toList s
      · rfl
      · obtain ⟨p, q, h⟩ := (occurs_iff _ _).mp e
        exact (hs p q h).elim
    unfold makeAgent directory
    rw [if_neg nofun]
    simp only [this]
    rfl

theorem createEnv_direct (net : String × Int → Source) {a : Args} (ha : Direct a) (s : Source) :
    createEnv net (some s) a.limit a.remote a.blocking none none = .ok ⟨some s, a.remote, none, s⟩ := by
  unfold createEnv
  rcases ha.1 with ⟨h, hb⟩ | h
  · rw [h, hb]; rfl
  · rw [h]; rfl

theorem further_direct (net : String × Int → Source) {a : Args} (ha : Direct a) (ext : Bool) (first : Made) (l : List Source)
    (h : ∀ x ∈ l, x.object = ext ∧ x.spaces = first.answers.spaces) :
    further net a ext first (l.map some) (List.replicate l.length none) (List.replicate l.length none) =
      .ok (l.map (fun s => ⟨some s, a.remote, none, s⟩)) := by
  induction l with
  | nil => rfl
  | cons s l ih =>
    obtain ⟨h1, h2⟩ := h s (List.mem_cons_self ..)
    have ih := ih (fun x hx => h x (List.mem_cons_of_mem _ hx))
    simp only [List.map_cons, List.length_cons, List.replicate_succ, further, createEnv_direct net ha, ih]
    rw [if_neg (by simp [h1]), if_neg (by simp [h2])]

theorem instances_documented {a : Args} {l : List Source} (h : Documented a l) : instances a = .ok (l.map some, l.length) := by
  unfold instances
  cases h with
  | single e h1 h2 h3 h4 =>
    rw [h1, h2, h3, h4]
    rfl
  | parallel e n h1 h2 h3 h4 h5 =>
    rw [h1, h2, h3]
    simp only
    rw [if_neg (by omega), if_neg (by simp), h5]
    simp
  | list l h1 h2 h3 h4 =>
    rw [h1, h2]
    have : l ≠ [] := by
      intro e
      rw [e] at h4
      simp only [List.length_nil] at h4
      split at h4 <;> omega
    simp only
    rw [if_neg this, if_neg]
    rintro ⟨x, y⟩
    exact h3.elim x y

theorem documented_ne {a : Args} {l : List Source} (h : Documented a l) : l ≠ [] := by
  cases h with
  | single e h1 h2 h3 h4 => simp
  | parallel e n h1 h2 h3 h4 h5 =>
    intro e
    have := congrArg List.length e
    simp at this
    omega
  | list l h1 h2 h3 h4 =>
    intro e
    rw [e] at h4
    simp only [List.length_nil] at h4
    split at h4 <;> omega

theorem ports_direct {a : Args} (ha : Direct a) (n : Nat) : ports a.host a.port n = .ok (List.replicate n none) := by
  rw [ha.2.1, ha.2.2]; rfl

theorem hosts_direct {a : Args} (ha : Direct a) (n : Nat) : hosts a.host n = .ok (List.replicate n none) := by
  rw [ha.2.1]; rfl

/-- Creation once the environments, ports and hosts are known. -/
theorem create_eq (net : String × Int → Source) (a : Args) {es : List (Option Source)} {n : Int} {ps : List (Option Int)} {hs : List (Option String)}
    {envs : List Made} {m : Int} {v : Option Nat} {o : Origin} {k : Option Int}
    (h1 : instances a = .ok (es, n)) (h2 : ports a.host a.port n.toNat = .ok ps) (h3 : hosts a.host n.toNat = .ok hs)
    (h4 : createAll net a es n hs ps = .ok (envs, m, v)) (h5 : makeAgent a.agent (m - if a.evaluation then 1 else 0) = .ok (o, k)) :
    create net a = .ok ⟨envs, v, external es, o, k⟩ := by
  unfold create
  rw [h1]; simp only
  rw [h2]; simp only
  rw [h3]; simp only
  rw [h4]; simp only
  rw [h5]

/-- Accepted creations have all parts. -/
theorem create_ok (net : String × Int → Source) (a : Args) {p : Plan} (h : create net a = .ok p) :
    ∃ es n ps hs envs m v o k, instances a = .ok (es, n) ∧ ports a.host a.port n.toNat = .ok ps ∧ hosts a.host n.toNat = .ok hs ∧
      createAll net a es n hs ps = .ok (envs, m, v) ∧ makeAgent a.agent (m - if a.evaluation then 1 else 0) = .ok (o, k) ∧
      p = ⟨envs, v, external es, o, k⟩ := by
  unfold create at h
  cases h1 : instances a with
  | error e => rw [h1] at h; cases h
  | ok r =>
    obtain ⟨es, n⟩ := r
    rw [h1] at h; simp only at h
    cases h2 : ports a.host a.port n.toNat with
    | error e => rw [h2] at h; cases h
    | ok ps =>
      rw [h2] at h; simp only at h
      cases h3 : hosts a.host n.toNat with
      | error e => rw [h3] at h; cases h
      | ok hs =>
        rw [h3] at h; simp only at h
        cases h4 : createAll net a es n hs ps with
        | error e => rw [h4] at h; cases h
        | ok r =>
          obtain ⟨envs, m, v⟩ := r
          rw [h4] at h; simp only at h
          cases h5 : makeAgent a.agent (m - if a.evaluation then 1 else 0) with
          | error e => rw [h5] at h; cases h
          | ok r =>
            obtain ⟨o, k⟩ := r
            rw [h5] at h; simp only at h
            injection h with h
            exact ⟨es, n, ps, hs, envs, m, v, o, k, rfl, h2, h3, h4, h5, h.symm⟩

theorem addressed (host : Each String) (port : Each Int) (n : Nat) (hh : Fits n host) (hp : Fits n port) :
    ∃ (hs : List (Option String)) (ps : List (Option Int)) (addrs : List (String × Int)), hosts host n = .ok hs ∧ ports host port n = .ok ps ∧ hs.length = n ∧ ps.length = n ∧ addrs.length = n ∧
      hs = addrs.map (fun (x : String × Int) => some x.1) ∧ ps = addrs.map (fun x => some x.2) ∧
      ∀ k < n, addrs[k]? = addressOf host port k := by
  cases host with
  | none => exact hh.elim
  | one h =>
    cases port with
    | none => exact hp.elim
    | one p =>
      refine ⟨_, _, (List.range n).map (fun (k : Nat) => (h, p + k)), rfl, rfl, by simp, by simp, by simp, ?_, ?_, ?_⟩
      · rw [List.map_map]
        show _ = List.map (fun _ => some h) _
        rw [List.map_const']
        simp
      · rw [List.map_map]; rfl
      · intro k hk
        simp [addressOf, hk]
    | many ps =>
      have hp : ps.length = n := hp
      refine ⟨_, _, ps.map (fun p => (h, p)), rfl, ?_, by simp, by simp [hp], by simp [hp], ?_, rfl, ?_⟩
      · simp [ports, hp]
      · rw [List.map_map]
        show _ = List.map (fun _ => some h) _
        rw [List.map_const', hp]
      · intro k hk
        simp [addressOf]
  | many hs =>
    have hh : hs.length = n := hh
    cases port with
    | none => exact hp.elim
    | one p =>
      refine ⟨hs.map some, List.replicate n (some p), hs.map (fun h => (h, p)), by simp [hosts, hh], rfl, by simp [hh], by simp, by simp [hh], by rw [List.map_map]; rfl, ?_, ?_⟩
      · rw [List.map_map]
        show _ = List.map (fun _ => some p) _
        rw [List.map_const', hh]
      · intro k hk
        simp [addressOf]
    | many ps =>
      have hp : ps.length = n := hp
      refine ⟨hs.map some, ps.map some, hs.zip ps, by simp [hosts, hh], by simp [ports, hp], by simp [hh], by simp [hp], by simp [hh, hp], ?_, ?_, ?_⟩
      · rw [show (fun x : String × Int => some x.1) = some ∘ Prod.fst from rfl, ← List.map_map, List.map_fst_zip (by omega)]
      · rw [show (fun x : String × Int => some x.2) = some ∘ Prod.snd from rfl, ← List.map_map, List.map_snd_zip (by omega)]
      · intro k hk
        have h1 : k < hs.length := by omega
        have h2 : k < ps.length := by omega
        have h3 : k < (hs.zip ps).length := by rw [List.length_zip]; omega
        rw [List.getElem?_eq_getElem h3]
        simp [addressOf, List.getElem?_eq_getElem, h1, h2]

theorem createEnv_socket (net : String × Int → Source) (a : Args) (hr : a.remote = some .socketClient) (hl : a.limit = none) (h : String) (p : Int) :
    createEnv net none a.limit a.remote a.blocking (some h) (some p) = .ok ⟨none, a.remote, some (h, p), net (h, p)⟩ := by
  unfold createEnv
  rw [hr, hl]
  rfl

theorem createEnv_client {net : String × Int → Source} {e : Option Source} {lim : Option Nat} {b : Bool} {h : Option String} {p : Option Int} {m : Made}
    (hm : createEnv net e lim (some .socketClient) b h p = .ok m) : e = none ∧ lim = none := by
  unfold createEnv at hm
  rw [if_neg (by simp), if_neg (by simp), if_neg (by simp)] at hm
  simp only at hm
  cases e with
  | some s => cases hm
  | none =>
    cases lim with
    | some _ => cases hm
    | none => exact ⟨rfl, rfl⟩

theorem createAll_head {net : String × Int → Source} {a : Args} {es : List (Option Source)} {n : Int} {hs : List (Option String)} {ps : List (Option Int)}
    {r : List Made × Int × Option Nat} (h : createAll net a es n hs ps = .ok r) :
    ∃ e es' h p m, es = e :: es' ∧ createEnv net e a.limit a.remote a.blocking h p = .ok m := by
  unfold createAll at h
  split at h
  · rename_i e es' hx hs' px ps'
    cases hc : createEnv net e a.limit a.remote a.blocking hx px with
    | error x => rw [hc] at h; cases h
    | ok m => exact ⟨e, es', hx, px, m, rfl, hc⟩
  · cases h

theorem further_socket (net : String × Int → Source) (a : Args) (hr : a.remote = some .socketClient) (hl : a.limit = none) (first : Made)
    (l : List (String × Int)) (h : ∀ x ∈ l, (net x).spaces = first.answers.spaces) :
    further net a false first (List.replicate l.length none) (l.map (fun x => some x.1)) (l.map (fun x => some x.2)) =
      .ok (l.map (fun x => ⟨none, a.remote, some x, net x⟩)) := by
  induction l with
  | nil => rfl
  | cons s l ih =>
    have h2 := h s (List.mem_cons_self ..)
    have ih := ih (fun x hx => h x (List.mem_cons_of_mem _ hx))
    simp only [List.map_cons, List.length_cons, List.replicate_succ, further, createEnv_socket net a hr hl, ih]
    rw [if_neg (by simp), if_neg (by simp [h2])]

theorem createEnv_source {net : String × Int → Source} {e : Option Source} {lim : Option Nat} {r : Option Remote} {b : Bool} {h : Option String} {p : Option Int}
    {m : Made} (hm : createEnv net e lim r b h p = .ok m) : m.source = e := by
  unfold createEnv at hm
  split at hm
  · cases hm
  split at hm
  · cases hm
  split at hm
  · cases hm
  split at hm
  · split at hm
    · cases hm
    · cases hm; rfl
  · split at hm
    · cases hm
    · rename_i he
      split at hm
      · cases hm
      · split at hm
        · cases hm
          cases e with
          | none => rfl
          | some s => exact (he rfl).elim
        · cases hm
  · cases hm
  · cases hm
  · split at hm
    · cases hm
    · cases hm; rfl

/-- What accepted environments have in common. -/
theorem createEnv_remote {net : String × Int → Source} {e : Option Source} {lim : Option Nat} {r : Option Remote} {b : Bool} {h : Option String} {p : Option Int}
    {m : Made} (hm : createEnv net e lim r b h p = .ok m) :
    (r = none ∨ r = some .multiprocessing ∨ r = some .socketClient) ∧ (r ≠ some .socketClient → h = none ∧ p = none) ∧ (r = none → b = false) := by
  cases r with
  | none => cases h <;> cases p <;> cases b <;> first | exact ⟨.inl rfl, fun _ => ⟨rfl, rfl⟩, fun _ => rfl⟩ | cases hm
  | some r =>
    cases r with
    | multiprocessing => cases h <;> cases p <;> first | exact ⟨.inr (.inl rfl), fun _ => ⟨rfl, rfl⟩, nofun⟩ | cases hm
    | socketClient => exact ⟨.inr (.inr rfl), fun x => (x rfl).elim, nofun⟩
    | socketServer => cases b <;> cases hm
    | other => cases h <;> cases p <;> cases b <;> cases hm

theorem further_alike {net : String × Int → Source} {a : Args} {ext : Bool} {first : Made} {es : List (Option Source)} {hs : List (Option String)}
    {ps : List (Option Int)} {ms : List Made} (h : further net a ext first es hs ps = .ok ms) (m : Made) (hm : m ∈ ms) :
    m.answers.spaces = first.answers.spaces ∧ (m.source.map (·.object)).getD false = ext := by
  induction es generalizing hs ps ms with
  | nil =>
    cases h
    cases hm
  | cons e es ih =>
    cases hs with
    | nil => cases h
    | cons hx hs =>
      cases ps with
      | nil => cases h
      | cons px ps =>
        simp only [further] at h
        split at h
        · cases h
        · rename_i ho
          cases hc : createEnv net e a.limit a.remote a.blocking hx px with
          | error x => rw [hc] at h; cases h
          | ok m' =>
            rw [hc] at h
            simp only at h
            split at h
            · cases h
            · rename_i hsp
              cases hf : further net a ext first es hs ps with
              | error x => rw [hf] at h; cases h
              | ok ms' =>
                rw [hf] at h
                simp only at h
                cases h
                rcases List.mem_cons.mp hm with rfl | hm
                · rw [createEnv_source hc]
                  exact ⟨Decidable.not_not.mp hsp, Decidable.not_not.mp ho⟩
                · exact ih hf hm

theorem createAll_parts {net : String × Int → Source} {a : Args} {es : List (Option Source)} {n : Int} {hs : List (Option String)} {ps : List (Option Int)}
    {envs : List Made} {m : Int} {v : Option Nat} (h : createAll net a es n hs ps = .ok (envs, m, v)) :
    ∃ e es' hx hs' px ps' first es'' ms, es = e :: es' ∧ hs = hx :: hs' ∧ ps = px :: ps' ∧ createEnv net e a.limit a.remote a.blocking hx px = .ok first ∧
      envs = first :: ms ∧ further net a (external es) first es'' hs' ps' = .ok ms := by
  unfold createAll at h
  split at h
  · rename_i e es' hx hs' px ps'
    cases hc : createEnv net e a.limit a.remote a.blocking hx px with
    | error x => rw [hc] at h; cases h
    | ok first =>
      rw [hc] at h
      simp only at h
      cases hv : vectorize a first n with
      | error x => rw [hv] at h; cases h
      | ok r =>
        obtain ⟨m', v', more⟩ := r
        rw [hv] at h
        simp only at h
        cases hf : further net a (external (e :: es')) first (if more then es' else []) hs' ps' with
        | error x => rw [hf] at h; cases h
        | ok ms =>
          rw [hf] at h
          cases h
          exact ⟨e, es', hx, hs', px, ps', first, _, ms, rfl, rfl, rfl, hc, rfl, hf⟩
  · cases h

theorem hosts_absent {host : Each String} {n : Nat} {hs : List (Option String)} (h : hosts host n = .ok (none :: hs)) : host = .none := by
  cases host with
  | none => rfl
  | one x =>
    have h : (Except.ok (List.replicate n (some x)) : Except Err _) = .ok (none :: hs) := h
    cases n with
    | zero => cases h
    | succ n => rw [List.replicate_succ] at h; cases h
  | many l =>
    simp only [hosts] at h
    split at h
    · cases h
    · cases l with
      | nil => cases h
      | cons y l => cases h

theorem ports_absent {port : Each Int} {n : Nat} {ps : List (Option Int)} (h : ports .none port n = .ok (none :: ps)) : port = .none := by
  cases port with
  | none => rfl
  | one x =>
    have h : (Except.ok (List.replicate n (some x)) : Except Err _) = .ok (none :: ps) := h
    cases n with
    | zero => cases h
    | succ n => rw [List.replicate_succ] at h; cases h
  | many l =>
    simp only [ports] at h
    split at h
    · cases h
    · cases l with
      | nil => cases h
      | cons y l => cases h

/-- The number given is the number of environments. -/
theorem instances_number {a : Args} {es : List (Option Source)} {n z : Int} (h : instances a = .ok (es, n)) (hz : a.numParallel = .int z) : n = z := by
  unfold instances at h
  rw [hz] at h
  split at h
  · split at h
    · cases h
    · cases h; rfl
  · cases h
  · split at h
    · cases h
    · split at h
      · cases h
      · rename_i hn
        cases h
        rename_i l _ _ _
        by_cases he : z = l.length
        · exact he.symm
        · exact (hn ⟨nofun, fun x => he (by injection x)⟩).elim
  · simp only at h
    split at h
    · cases h
    split at h
    · cases h
    split at h
    · cases h
    · cases h; rfl

theorem instances_length {a : Args} {es : List (Option Source)} {n : Int} (h : instances a = .ok (es, n)) : es.length = n.toNat := by
  unfold instances at h
  split at h
  · split at h
    · cases h
    · split at h
      · cases h
      · cases h; simp
      · cases h
  · cases h
  · split at h
    · cases h
    · split at h
      · cases h
      · cases h; simp
  · split at h
    · split at h
      · cases h
      · split at h
        · cases h
        · cases h; rfl
    · cases h
    · split at h
      · cases h
      · split at h
        · cases h
        · split at h
          · cases h
          · cases h; simp

theorem vectorize_alone {a : Args} {first : Made} {n m : Int} {k : Nat} {more : Bool} (h : vectorize a first n = .ok (m, some k, more)) : more = false ∨ n = 1 := by
  unfold vectorize at h
  split at h
  · split at h
    · cases h
    · cases h; exact Or.inl rfl
  · split at h
    · split at h
      · cases h
      · rename_i hn
        exact Or.inr (Decidable.not_not.mp hn)
    · cases h

theorem createAll_alone {net : String × Int → Source} {a : Args} {es : List (Option Source)} {n : Int} {hs : List (Option String)} {ps : List (Option Int)}
    {envs : List Made} {m : Int} {k : Nat} (hn : es.length = n.toNat) (h : createAll net a es n hs ps = .ok (envs, m, some k)) : envs.length = 1 := by
  unfold createAll at h
  split at h
  · rename_i e es' hx hs' px ps'
    cases hc : createEnv net e a.limit a.remote a.blocking hx px with
    | error x => rw [hc] at h; cases h
    | ok first =>
      rw [hc] at h
      simp only at h
      cases hv : vectorize a first n with
      | error x => rw [hv] at h; cases h
      | ok r =>
        obtain ⟨m', v', more⟩ := r
        rw [hv] at h
        simp only at h
        cases hf : further net a (external (e :: es')) first (if more then es' else []) hs' ps' with
        | error x => rw [hf] at h; cases h
        | ok ms =>
          rw [hf] at h
          cases h
          have hnil : (if more then es' else []) = [] := by
            rcases vectorize_alone hv with rfl | rfl
            · rfl
            · have : es' = [] := by
                simp only [List.length_cons] at hn
                exact List.eq_nil_of_length_eq_zero (by have : (1 : Int).toNat = 1 := rfl; omega)
              rw [this]
              cases more <;> rfl
          rw [hnil] at hf
          simp only [further] at hf
          cases hf
          rfl
  · cases h

end Verif.Launch
