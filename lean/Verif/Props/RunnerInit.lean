import Verif.Launch.Lemmas

/-!
# C136: creation of runners

The runner creates the environments asked for, each with its own address, and the agent with one interaction for each.
-/

namespace Verif.Props.RunnerInit

open Verif.Launch

/-- A specification, and arguments with it. -/
def spec : Source := ⟨false, false, 1, 0⟩

def basic : Args := ⟨.dict false, some spec, none, .none, .none, false, none, false, .none, .none⟩

def nowhere : String × Int → Source := fun _ => spec

/-- Each documented way to give environments is accepted, and gives exactly these environments; the agent has one interaction for each, except
the one for evaluation. For environments which are neither vectorized nor have several actors, local or in other processes. -/
theorem direct (net : String × Int → Source) (a : Args) (l : List Source) (o : Origin) (hd : Documented a l) (ha : Direct a) (hl : Alike l) (hs : Simple a l)
    (hg : GoodAgent a.agent o) :
    ∃ ext, create net a = .ok ⟨l.map (fun s => ⟨some s, a.remote, none, s⟩), none, ext, o, interactions o (l.length - if a.evaluation then 1 else 0)⟩ ∧
      ∀ s ∈ l, s.object = ext := by
  have hi := instances_documented hd
  cases l with
  | nil => exact (documented_ne hd rfl).elim
  | cons e l =>
    have hv : vectorize a ⟨some e, a.remote, none, e⟩ ((e :: l).length : Int) = .ok (((e :: l).length : Int), none, true) := by
      obtain ⟨h1, h2⟩ := hs e (List.mem_cons_self ..)
      unfold vectorize
      rw [if_neg, if_neg (Nat.not_lt.mpr h1)]
      rintro ⟨x, y, z⟩
      rcases h2 with h2 | h2 | h2
      · simp only at z; rw [h2] at z; cases z
      · exact h2 x
      · omega
    have hf := further_direct net ha e.object ⟨some e, a.remote, none, e⟩ l
      (fun x hx => hl x (List.mem_cons_of_mem _ hx) e (List.mem_cons_self ..))
    have hc : createAll net a ((e :: l).map some) ((e :: l).length : Int) (List.replicate (e :: l).length none) (List.replicate (e :: l).length none) =
        .ok ((e :: l).map (fun s => ⟨some s, a.remote, none, s⟩), ((e :: l).length : Int), none) := by
      simp only [List.map_cons, List.length_cons, List.replicate_succ, createAll, createEnv_direct net ha, external]
      simp only [List.length_cons] at hv
      rw [hv]
      simp only [if_true]
      rw [hf]
    refine ⟨e.object, ?_, fun s hs => (hl s hs e (List.mem_cons_self ..)).1⟩
    exact create_eq net a hi (by rw [Int.toNat_natCast]; exact ports_direct ha _) (by rw [Int.toNat_natCast]; exact hosts_direct ha _) hc (makeAgent_good hg _)

example : Documented basic [spec] ∧ Direct basic ∧ Alike [spec] ∧ Simple basic [spec] ∧ GoodAgent basic.agent .created :=
  ⟨.single spec rfl rfl rfl rfl, ⟨.inl ⟨rfl, rfl⟩, rfl, rfl⟩, fun x hx y hy => by
    rw [List.mem_singleton.mp hx, List.mem_singleton.mp hy]; exact ⟨rfl, rfl⟩, fun x hx => by rw [List.mem_singleton.mp hx]; exact ⟨Nat.le_refl _, .inl rfl⟩, .dict⟩

/-- A vectorizable environment is created once and executed by as many parallel instances as asked for. -/
theorem vectorized (net : String × Int → Source) (a : Args) (e : Source) (n : Nat) (o : Origin) (hn : 2 ≤ n) (he : a.environment = some e) (hm : a.environments = .none)
    (hp : a.numParallel = .int n) (ho : e.object = false) (hv : e.vectorizable = true) (ha : Direct a) (hr : a.remote = none) (hev : a.evaluation = false)
    (hg : GoodAgent a.agent o) :
    create net a = .ok ⟨[⟨some e, none, none, e⟩], some n, false, o, interactions o n⟩ := by
  have hd : Documented a (List.replicate n e) := .parallel e n he hm hp hn ho
  have hi := instances_documented hd
  obtain ⟨k, rfl⟩ : ∃ k, n = k + 1 := ⟨n - 1, by omega⟩
  simp only [List.map_replicate, List.length_replicate] at hi
  have hc : createAll net a (List.replicate (k + 1) (some e)) ((k + 1 : Nat) : Int) (List.replicate (k + 1) none) (List.replicate (k + 1) none) =
      .ok ([⟨some e, a.remote, none, e⟩], ((k + 1 : Nat) : Int), some (k + 1)) := by
    simp only [List.replicate_succ, createAll, createEnv_direct net ha]
    have : vectorize a ⟨some e, a.remote, none, e⟩ ((k + 1 : Nat) : Int) = .ok (((k + 1 : Nat) : Int), some (k + 1), false) := by
      unfold vectorize
      rw [if_pos ⟨hr, by omega, hv⟩, hev]
      rfl
    rw [this]
    rfl
  have h := create_eq net a hi (by rw [Int.toNat_natCast]; exact ports_direct ha _) (by rw [Int.toNat_natCast]; exact hosts_direct ha _) hc
    (by rw [hev]; exact makeAgent_good hg _)
  rw [h, hr]
  simp [List.replicate_succ, external, ho]

example : Direct { basic with environment := some ⟨false, true, 1, 0⟩, numParallel := .int 3 } := ⟨.inl ⟨rfl, rfl⟩, rfl, rfl⟩

/-- Vectorized environments cannot be evaluated separately. -/
theorem evaluation_refused (net : String × Int → Source) (a : Args) (e : Source) (n : Nat) (hn : 2 ≤ n) (he : a.environment = some e) (hm : a.environments = .none)
    (hp : a.numParallel = .int n) (ho : e.object = false) (hv : e.vectorizable = true) (ha : Direct a) (hr : a.remote = none) (hev : a.evaluation = true) :
    create net a = .error .tensorforce := by
  have hd : Documented a (List.replicate n e) := .parallel e n he hm hp hn ho
  have hi := instances_documented hd
  obtain ⟨k, rfl⟩ : ∃ k, n = k + 1 := ⟨n - 1, by omega⟩
  simp only [List.map_replicate, List.length_replicate] at hi
  have hc : createAll net a (List.replicate (k + 1) (some e)) ((k + 1 : Nat) : Int) (List.replicate (k + 1) none) (List.replicate (k + 1) none) =
      .error .tensorforce := by
    simp only [List.replicate_succ, createAll, createEnv_direct net ha]
    have : vectorize a ⟨some e, a.remote, none, e⟩ ((k + 1 : Nat) : Int) = .error .tensorforce := by
      unfold vectorize
      rw [if_pos ⟨hr, by omega, hv⟩, hev]
      rfl
    rw [this]
  unfold create
  simp only [hi, Int.toNat_natCast, ports_direct ha, hosts_direct ha, hc]

example : create nowhere { basic with environment := some ⟨false, true, 1, 0⟩, numParallel := .int 3, evaluation := true } = .error .tensorforce := by decide +kernel

/-- If environments are vectorized, or have several actors, there is only one object. -/
theorem vectorized_alone (net : String × Int → Source) (a : Args) (p : Plan) (k : Nat) (h : create net a = .ok p) (hk : p.vectorized = some k) :
    p.environments.length = 1 := by
  obtain ⟨es, n, ps, hs, envs, m, v, o, i, h1, _, _, h4, _, rfl⟩ := create_ok net a h
  cases hk
  exact createAll_alone (instances_length h1) h4

example : (create nowhere { basic with environment := some ⟨false, false, 3, 0⟩ }).toOption.map (fun p => (p.vectorized, p.environments.length)) = some (some 3, 1) := by
  decide +kernel

/-- A single environment with several actors has one interaction for each of them. -/
theorem actors (net : String × Int → Source) (a : Args) (e : Source) (o : Origin) (he : a.environment = some e) (hm : a.environments = .none)
    (hp : a.numParallel = .none) (hk : 2 ≤ e.actors) (ha : Direct a) (hev : a.evaluation = false) (hg : GoodAgent a.agent o) :
    create net a = .ok ⟨[⟨some e, a.remote, none, e⟩], some e.actors, e.object, o, interactions o e.actors⟩ := by
  have hi := instances_documented (.single e he hm hp hev)
  have hc : createAll net a ([e].map some) (([e].length : Nat) : Int) (List.replicate [e].length none) (List.replicate [e].length none) =
      .ok ([⟨some e, a.remote, none, e⟩], (e.actors : Int), some e.actors) := by
    simp only [List.map_cons, List.map_nil, List.length_cons, List.length_nil, List.replicate_succ, createAll, createEnv_direct net ha]
    have : vectorize a ⟨some e, a.remote, none, e⟩ ((0 + 1 : Nat) : Int) = .ok ((e.actors : Int), some e.actors, true) := by
      unfold vectorize
      rw [if_neg (fun h => by have := h.2.1; omega), if_pos (by simp only; omega), if_neg (by simp)]
    rw [this]
    rfl
  have h := create_eq net a hi (by rw [Int.toNat_natCast]; exact ports_direct ha _) (by rw [Int.toNat_natCast]; exact hosts_direct ha _) hc
    (by rw [hev]; exact makeAgent_good hg _)
  rw [h]
  simp [external]

example : 2 ≤ (⟨true, false, 3, 0⟩ : Source).actors := by decide

/-- In socket mode environment `k` is the one served at its own address: with a single host and port the ports increase. -/
theorem sockets (net : String × Int → Source) (a : Args) (n : Nat) (o : Origin) (hn : 1 ≤ n) (he : a.environment = none) (hm : a.environments = .none)
    (hr : a.remote = some .socketClient) (hl : a.limit = none) (hp : a.numParallel = .int n) (hh : Fits n a.host) (hq : Fits n a.port)
    (hs : ∀ x y, (net x).spaces = (net y).spaces) (hv : ∀ x, (net x).actors ≤ 1) (hg : GoodAgent a.agent o) :
    ∃ envs, create net a = .ok ⟨envs, none, false, o, interactions o (n - if a.evaluation then 1 else 0)⟩ ∧ envs.length = n ∧
      ∀ k < n, ∃ x, addressOf a.host a.port k = some x ∧ envs[k]? = some ⟨none, some .socketClient, some x, net x⟩ := by
  have hi : instances a = .ok (List.replicate n none, (n : Int)) := by
    unfold instances
    rw [he, hm, hp, hr]
    simp
  obtain ⟨hsl, psl, addrs, h1, h2, _, _, h5, rfl, rfl, h8⟩ := addressed a.host a.port n hh hq
  cases addrs with
  | nil => simp at h5; omega
  | cons x l =>
    have hc : createAll net a (List.replicate n none) (n : Int) ((x :: l).map (fun y => some y.1)) ((x :: l).map (fun y => some y.2)) =
        .ok ((x :: l).map (fun y => ⟨none, a.remote, some y, net y⟩), (n : Int), none) := by
      subst h5
      simp only [List.map_cons, List.length_cons, List.replicate_succ, createAll, createEnv_socket net a hr hl]
      have : vectorize a ⟨none, a.remote, some x, net x⟩ ((l.length + 1 : Nat) : Int) = .ok (((l.length + 1 : Nat) : Int), none, true) := by
        unfold vectorize
        rw [if_neg (fun h => by rw [hr] at h; cases h.1), if_neg (Nat.not_lt.mpr (hv x))]
      rw [show ((x.fst, x.snd) : String × Int) = x from rfl, this]
      simp only [external, if_true]
      rw [further_socket net a hr hl _ l (fun y _ => hs y x)]
    refine ⟨(x :: l).map (fun y => ⟨none, a.remote, some y, net y⟩), ?_, ?_, ?_⟩
    · have h := create_eq net a hi (by rw [Int.toNat_natCast]; exact h2) (by rw [Int.toNat_natCast]; exact h1) hc (makeAgent_good hg _)
      rw [h, show external (List.replicate n none) = false by cases n <;> rfl]
    · rw [List.length_map, h5]
    · intro k hk
      have e := h8 k hk
      have hk' : k < (x :: l).length := by omega
      refine ⟨(x :: l)[k], ?_, ?_⟩
      · rw [← e, List.getElem?_eq_getElem hk']
      · rw [List.getElem?_map, List.getElem?_eq_getElem hk', hr]
        rfl

example : addressOf (.one "host") (.one 8000) 2 = some ("host", 8002) ∧ Fits 3 (.one "host") := ⟨by decide, trivial⟩

/-- Increasing ports are different. -/
theorem distinct (h : String) (p : Int) (i j : Nat) (hij : addressOf (.one h) (.one p) i = addressOf (.one h) (.one p) j) : i = j := by
  simp only [addressOf, Option.some.injEq, Prod.mk.injEq, true_and] at hij
  omega

example : addressOf (.one "h") (.one 1) 1 ≠ addressOf (.one "h") (.one 1) 2 := by decide

/-- Only these arguments are accepted: one environment, or one specification with a number, or a list, or sockets. Missing for the property: the
arguments of the violations are accepted too. -/
theorem only_partial (net : String × Int → Source) (a : Args) (p : Plan) (h : create net a = .ok p) :
    (∃ e, a.environment = some e ∧ a.environments = .none ∧ a.remote ≠ some .socketClient ∧
      (a.numParallel = .none ∧ a.evaluation = false ∨ ∃ n, a.numParallel = .int n ∧ 2 ≤ n ∧ e.object = false)) ∨
    (∃ l, a.environment = none ∧ a.environments = .list l ∧ l ≠ [] ∧ a.remote ≠ some .socketClient ∧ (a.numParallel = .none ∨ a.numParallel = .int l.length)) ∨
    (∃ n, a.environment = none ∧ a.environments = .none ∧ a.remote = some .socketClient ∧ a.numParallel = .int n ∧ 1 ≤ n ∧ a.limit = none) := by
  obtain ⟨es, n, ps, hs, envs, m, v, o, k, h1, _, _, h4, _, _⟩ := create_ok net a h
  have hcl : a.remote = some .socketClient → es.head? = some none ∧ a.limit = none := by
    intro hr
    obtain ⟨e, es', hx, px, m', rfl, hc⟩ := createAll_head h4
    rw [hr] at hc
    obtain ⟨rfl, hl⟩ := createEnv_client hc
    exact ⟨rfl, hl⟩
  unfold instances at h1
  split at h1
  · rename_i he hm
    split at h1
    · cases h1
    · rename_i hr
      have hr := Decidable.not_not.mp hr
      split at h1
      · cases h1
      · rename_i z hz
        injection h1 with h1
        obtain ⟨rfl, rfl⟩ := Prod.mk.inj h1
        obtain ⟨hh, hl⟩ := hcl hr
        refine .inr (.inr ⟨z, he, hm, hr, hz, ?_, hl⟩)
        cases hk : z.toNat with
        | zero => rw [hk] at hh; cases hh
        | succ j => omega
      · cases h1
  · cases h1
  · rename_i l he hm
    split at h1
    · cases h1
    · rename_i hne
      split at h1
      · cases h1
      · rename_i hnp
        injection h1 with h1
        obtain ⟨rfl, rfl⟩ := Prod.mk.inj h1
        refine .inr (.inl ⟨l, he, hm, hne, ?_, ?_⟩)
        · intro hr
          have := (hcl hr).1
          cases l with
          | nil => exact hne rfl
          | cons s l => simp at this
        · by_cases h0 : a.numParallel = .none
          · exact .inl h0
          · by_cases h2 : a.numParallel = .int l.length
            · exact .inr h2
            · exact (hnp ⟨h0, h2⟩).elim
  · rename_i es0 e he
    split at h1
    · rename_i hz
      split at h1
      · cases h1
      · rename_i hm
        split at h1
        · cases h1
        · rename_i hev
          injection h1 with h1
          obtain ⟨rfl, rfl⟩ := Prod.mk.inj h1
          refine .inl ⟨e, he, Decidable.not_not.mp hm, ?_, .inl ⟨hz, by simpa using hev⟩⟩
          intro hr
          have := (hcl hr).1
          simp at this
    · cases h1
    · rename_i z hz
      split at h1
      · cases h1
      · rename_i h2
        split at h1
        · cases h1
        · rename_i hm
          split at h1
          · cases h1
          · rename_i ho
            injection h1 with h1
            obtain ⟨rfl, rfl⟩ := Prod.mk.inj h1
            refine .inl ⟨e, he, Decidable.not_not.mp hm, ?_, .inr ⟨z, hz, by omega, by simpa using ho⟩⟩
            intro hr
            have := (hcl hr).1
            obtain ⟨j, hj⟩ : ∃ j, z.toNat = j + 1 := ⟨z.toNat - 1, by omega⟩
            rw [hj] at this
            simp [List.replicate_succ] at this

example : (create nowhere basic).toBool = true := by decide +kernel

/-- Arguments which are documented as invalid raise a TensorforceError. Missing for the property: see the violations. -/
theorem invalid_partial (net : String × Int → Source) (a : Args)
    (h : (a.environment = none ∧ a.environments = .none ∧ a.remote ≠ some .socketClient) ∨
      (a.environment.isSome ∧ a.environments ≠ .none ∧ a.numParallel ≠ .other) ∨
      (∃ e, a.environment = some e ∧ a.numParallel = .none ∧ a.evaluation = true) ∨
      (∃ e n, a.environment = some e ∧ a.numParallel = .int n ∧ (n < 2 ∨ e.object = true)) ∨
      (a.environment = none ∧ a.environments = .list []) ∨
      (∃ l n, a.environment = none ∧ a.environments = .list l ∧ a.numParallel = .int n ∧ n ≠ l.length)) :
    create net a = .error .tensorforce := by
  have : instances a = .error .tensorforce := by
    unfold instances
    rcases h with ⟨h1, h2, h3⟩ | ⟨h1, h2, h3⟩ | ⟨e, h1, h2, h3⟩ | ⟨e, n, h1, h2, h3⟩ | ⟨h1, h2⟩ | ⟨l, n, h1, h2, h3, h4⟩
    · rw [h1, h2]; simp only; rw [if_pos h3]
    · obtain ⟨e, he⟩ := Option.isSome_iff_exists.mp h1
      rw [he]
      simp only
      split
      · rw [if_pos h2]
      · rename_i hx; exact (h3 hx).elim
      · split
        · rfl
        · rfl
    · rw [h1, h2, h3]
      simp
    · rw [h1, h2]
      simp only
      rcases h3 with h3 | h3
      · rw [if_pos h3]
      · rw [h3]; simp
    · rw [h1, h2]; rfl
    · rw [h1, h2, h3]
      simp only
      by_cases hl : l = []
      · rw [if_pos hl]
      · rw [if_neg hl, if_pos ⟨nofun, fun e => h4 (by injection e)⟩]
  unfold create
  rw [this]

example : create nowhere { basic with environment := none } = .error .tensorforce := by decide +kernel

/-- All environments of a runner have the same states and actions, and are all objects or none. -/
theorem same_spaces (net : String × Int → Source) (a : Args) (p : Plan) (h : create net a = .ok p) (m m' : Made) (hm : m ∈ p.environments) (hm' : m' ∈ p.environments) :
    m.answers.spaces = m'.answers.spaces ∧ (m.source.map (·.object)).getD false = (m'.source.map (·.object)).getD false := by
  obtain ⟨es, n, ps, hs, envs, k, v, o, i, _, _, _, h4, _, rfl⟩ := create_ok net a h
  obtain ⟨e, es', hx, hs', px, ps', first, es'', ms, rfl, _, _, hc, rfl, hf⟩ := createAll_parts h4
  have key : ∀ x ∈ first :: ms, x.answers.spaces = first.answers.spaces ∧ (x.source.map (·.object)).getD false = external (e :: es') := by
    intro x hx
    rcases List.mem_cons.mp hx with rfl | hx
    · refine ⟨rfl, ?_⟩
      rw [createEnv_source hc]
      cases e <;> rfl
    · exact further_alike hf x hx
  have h1 := key m hm
  have h2 := key m' hm'
  exact ⟨by rw [h1.1, h2.1], by rw [h1.2, h2.2]⟩

example : (create nowhere { basic with environment := none, environments := .list [spec, spec] }).toOption.map (fun p => p.environments.length) = some 2 ∧
    create nowhere { basic with environment := none, environments := .list [spec, ⟨false, false, 1, 3⟩] } = .error .assertion := by decide +kernel

/-- Only local environments, other processes and clients of sockets are accepted; addresses only for sockets, and blocking only if remote. -/
theorem addresses_refused (net : String × Int → Source) (a : Args) (p : Plan) (h : create net a = .ok p) :
    (a.remote = none ∨ a.remote = some .multiprocessing ∨ a.remote = some .socketClient) ∧
      (a.remote ≠ some .socketClient → a.host = .none ∧ a.port = .none) ∧ (a.remote = none → a.blocking = false) := by
  obtain ⟨es, n, ps, hs, envs, k, v, o, i, _, h2, h3, h4, _, rfl⟩ := create_ok net a h
  obtain ⟨e, es', hx, hs', px, ps', first, es'', ms, rfl, rfl, rfl, hc, rfl, hf⟩ := createAll_parts h4
  obtain ⟨r1, r2, r3⟩ := createEnv_remote hc
  refine ⟨r1, fun hr => ?_, r3⟩
  obtain ⟨rfl, rfl⟩ := r2 hr
  have hh := hosts_absent h3
  rw [hh] at h2
  exact ⟨hh, ports_absent h2⟩

example : create nowhere { basic with blocking := true } = .error .tensorforce ∧ create nowhere { basic with port := .one 80 } = .error .tensorforce := by decide +kernel

/-- Lists of hosts and ports have one entry for each environment. -/
theorem misfit (net : String × Int → Source) (a : Args) (p : Plan) (z : Int) (hz : a.numParallel = .int z) (h : create net a = .ok p) :
    (∀ l, a.host = .many l → (l.length : Int) = z) ∧ (∀ l, a.port = .many l → (l.length : Int) = z) := by
  obtain ⟨es, n, ps, hs, envs, k, v, o, i, h1, h2, h3, h4, _, rfl⟩ := create_ok net a h
  obtain ⟨e, es', hx, hs', px, ps', first, es'', ms, rfl, rfl, rfl, hc, rfl, hf⟩ := createAll_parts h4
  have hn := instances_number h1 hz
  subst hn
  refine ⟨fun l hl => ?_, fun l hl => ?_⟩
  · rw [hl] at h3
    simp only [hosts] at h3
    split at h3
    · cases h3
    · rename_i hne
      cases l with
      | nil => cases h3
      | cons y l =>
        have := Decidable.not_not.mp hne
        rw [List.length_cons] at this ⊢
        omega
  · rw [hl] at h2
    simp only [ports] at h2
    split at h2
    · cases h2
    · rename_i hne
      cases l with
      | nil => cases h2
      | cons y l =>
        have := Decidable.not_not.mp hne
        rw [List.length_cons] at this ⊢
        omega

example : create nowhere { basic with environment := none, remote := some .socketClient, numParallel := .int 2, host := .many ["a"], port := .one 80 } = .error .tensorforce := by
  decide +kernel

/-- Evaluation needs several environments, but a list of one is accepted: no environment is left to train the agent. -/
theorem evaluation_violation :
    (create nowhere { basic with environment := none, environments := .list [spec], evaluation := true }).toOption.map (fun p => (p.environments.length, p.interactions)) =
      some (1, none) := by decide +kernel

/-- If the first of a list of environments is vectorizable the others are not used. -/
theorem dropped_violation :
    (create nowhere { basic with environment := none, environments := .list [⟨true, true, 1, 0⟩, ⟨true, false, 1, 7⟩] }).toOption.map (fun p => p.environments) =
      some [⟨some ⟨true, true, 1, 0⟩, none, none, ⟨true, true, 1, 0⟩⟩] := by decide +kernel

/-- Objects are accepted in other processes, which is documented as not possible, and then not closed by the runner. -/
theorem object_violation :
    (create nowhere { basic with environment := some ⟨true, false, 1, 0⟩, remote := some .multiprocessing }).toOption.map (fun p => (p.external, p.environments.map (·.remote))) =
      some (true, [some .multiprocessing]) := by decide +kernel

/-- Invalid types of `num_parallel` and `environments`, and a host without port, raise a TypeError instead of a TensorforceError; no sockets an
IndexError. -/
theorem type_violation : create nowhere { basic with numParallel := .other } = .error .type_ ∧
    create nowhere { basic with environment := none, environments := .other } = .error .type_ ∧
    create nowhere { basic with host := .one "localhost" } = .error .type_ ∧
    create nowhere { basic with environment := none, remote := some .socketClient, numParallel := .int 0, host := .one "localhost", port := .one 8000 } = .error .index := by
  decide +kernel

/-- Classes and functions, which are specifications of agents, and paths which contain the word "directory" raise a TypeError. -/
theorem agent_violation (p q : List Char) : create nowhere { basic with agent := .other } = .error .type_ ∧
    create nowhere { basic with agent := .text (p ++ "directory".toList ++ q) } = .error .type_ := by
  refine ⟨by decide +kernel, ?_⟩
  have ho : occurs "directory".toList (p ++ "directory".toList ++ q) = true := (occurs_iff _ _).mpr ⟨p, q, rfl⟩
  have ha : makeAgent (.text (p ++ "directory".toList ++ q)) 1 = .error .type_ := by
    unfold makeAgent directory
    rw [if_neg (by simp)]
    simp only [ho]
  unfold create
  have hi : instances { basic with agent := .text (p ++ "directory".toList ++ q) } = .ok ([some spec], 1) := rfl
  rw [hi]
  simp only
  have hc : createAll nowhere { basic with agent := .text (p ++ "directory".toList ++ q) } [some spec] 1 [none] [none] =
      .ok ([⟨some spec, none, none, spec⟩], 1, none) := rfl
  change (match createAll nowhere { basic with agent := .text (p ++ "directory".toList ++ q) } [some spec] 1 [none] [none] with
    | .error e => .error e
    | .ok (envs, m, v) => match makeAgent (.text (p ++ "directory".toList ++ q)) (m - if false = true then 1 else 0) with
      | .error e => .error e
      | .ok (o, k) => .ok ⟨envs, v, external [some spec], o, k⟩) = (.error .type_ : Except Err Plan)
  rw [hc]
  simp only
  change (match makeAgent (.text (p ++ "directory".toList ++ q)) 1 with
    | .error e => .error e
    | .ok (o, k) => .ok ⟨[⟨some spec, none, none, spec⟩], none, external [some spec], o, k⟩) = (.error .type_ : Except Err Plan)
  rw [ha]

end Verif.Props.RunnerInit
