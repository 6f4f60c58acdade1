import Verif.Net.Prep

/-!
# Properties of layered networks

Witnesses: specifications are sizes, every layer announces the size given for it, and tensors are the lists of the layers they went through.
-/

namespace Verif.Props.Net

open Verif.Net

variable {α β ι : Type}

/-- The same result as the specification: the same tensor and, by name, the states of all temporal layers; or the same error. -/
def Corresponds (keys : List (Nat × String)) (names : List String) (a : Except NError (α × List (String × α) × List (String × ι)))
    (b : Except NError (Exec α ι)) : Prop :=
  match a, b with
  | .ok r, .ok e => r.1 = e.x ∧ r.2.1 = [] ∧ (∀ k ∈ keys, r.2.2.lookup k.2 = some (e.states k)) ∧ r.2.2.map Prod.fst = names
  | .error x, .error y => x = y
  | _, _ => False

section
variable [DecidableEq β] {S : SpecFns β}

/-! ### C84: the order of the layers -/

/-- C84: networks created one after the other compute the steps of their layers in the order given, if the recursion limit suffices and the internals
are those of the temporal layers. Missing: reused layers whose name is used again later, also by another network (`redefined_violation`). -/
theorem computes_partial (ps : List (LSpec × Inputs β)) (ns : List (Network β)) (R : Reg β) (h : networks S ps [] = .ok (ns, R))
    (hst : StableAll (ps.map Prod.fst) []) (i : Nat) (n : Network β) (steps : List Step) (hn : ns[i]? = some n)
    (hs : (stepsOf (ps.map Prod.fst) [])[i]? = some steps) :
    ∃ N, ∀ limit, N ≤ limit → ∀ ts, n.internalsSpec limit R = .ok ts →
      ∀ (α ι : Type) (F : Fns α ι) (m : Mode) (inputs : Inputs α) (states : Nat × String → ι) (internals : List (String × ι)),
      (∀ k ∈ ts, internals.lookup k.2 = some (states k)) →
      Corresponds ts (internals.map Prod.fst) (n.apply F m limit R inputs internals) (exec F m steps (start inputs states)) := by
  obtain ⟨⟨N, hg⟩, ho⟩ := networks_steps ps [] (ns, R) h [] [] hst (by intro l o h; cases h) (by intro l o _ h; exact h) i n steps hn hs
  refine ⟨N, fun limit hl ts hts α ι F m inputs states internals hi => ?_⟩
  obtain ⟨ht, hnd⟩ := internalsSpec_ok hts
  have hteq : ts = temporalSteps steps := by
    rw [(hg limit hl).2] at ht
    injection ht with ht
    exact ht.symm
  have hsame := steps_same F m hnd steps (by rw [hteq]; exact fun k h => h) (s := begin inputs internals) (e := start inputs states) ⟨rfl, rfl, rfl, hi⟩
  rw [Network.apply, (hg limit hl).1, ho]
  cases ha : chain (namedStep F m) steps (begin inputs internals) with
  | error x =>
    cases hb : exec F m steps (start inputs states) with
    | error y => rw [ha, hb] at hsame; exact hsame
    | ok e => rw [ha, hb] at hsame; exact hsame.elim
  | ok s =>
    cases hb : exec F m steps (start inputs states) with
    | error y => rw [ha, hb] at hsame; exact hsame.elim
    | ok e =>
      rw [ha, hb] at hsame
      exact ⟨hsame.1.1, rfl, hsame.1.2.2.2, hsame.2⟩

/-- C84: whatever the recursion limit, a result is that of the steps. -/
theorem result_partial (ps : List (LSpec × Inputs β)) (ns : List (Network β)) (R : Reg β) (h : networks S ps [] = .ok (ns, R))
    (hst : StableAll (ps.map Prod.fst) []) (i : Nat) (n : Network β) (steps : List Step) (hn : ns[i]? = some n)
    (hs : (stepsOf (ps.map Prod.fst) [])[i]? = some steps) (l : Nat) (ts : List (Nat × String)) (hts : n.internalsSpec l R = .ok ts)
    (F : Fns α ι) (m : Mode) (limit : Nat) (inputs : Inputs α) (states : Nat × String → ι) (internals : List (String × ι))
    (hi : ∀ k ∈ ts, internals.lookup k.2 = some (states k)) (r : α × List (String × α) × List (String × ι))
    (hr : n.apply F m limit R inputs internals = .ok r) :
    ∃ e, exec F m steps (start inputs states) = .ok e ∧ r.1 = e.x ∧ ∀ k ∈ ts, r.2.2.lookup k.2 = some (e.states k) := by
  obtain ⟨hg, ho⟩ := networks_steps ps [] (ns, R) h [] [] hst (by intro l o h; cases h) (by intro l o _ h; exact h) i n steps hn hs
  obtain ⟨s, h1, h2, -, h4⟩ := apply_ok hr
  obtain ⟨ht, hnd⟩ := internalsSpec_ok hts
  have hteq := hg.temporalSteps_eq l ts ht
  have hsame := steps_same F m hnd steps (by rw [hteq]; exact fun k h => h) (s := begin inputs internals) (e := start inputs states) ⟨rfl, rfl, rfl, hi⟩
  rw [hg.result F m limit _ s h1] at hsame
  cases hb : exec F m steps (start inputs states) with
  | error y => rw [hb] at hsame; exact hsame.elim
  | ok e =>
    rw [hb] at hsame
    exact ⟨e, rfl, by rw [h2]; exact hsame.1.1, by rw [h4]; exact hsame.1.2.2.2⟩

end

/-- C84: layers in sequence, without any other structure, are applied one after the other. -/
theorem sequential (F : Fns α ι) (m : Mode) (ids : List (Nat × String × List String)) (scope : Scope) (e : Exec α ι) :
    exec F m (expandAll (ids.map fun p => .layer p.1 p.2.1 .plain p.2.2) scope).1 e =
      .ok { e with x := ids.foldl (fun x p => F.plain p.1 x) e.x } := by
  induction ids generalizing scope e with
  | nil => rfl
  | cons p ids ih =>
    rw [List.map_cons, expandAll, exec_append]
    show exec F m _ { e with x := F.plain p.1 e.x } = _
    rw [ih]
    rfl

/-- C84: the layers of a block and of an inner list are applied in their place. -/
theorem nested (name : String) (layers rest : List LSpec) (scope : Scope) :
    (expandAll (.block name layers :: rest) scope).1 =
        (expandAll layers scope).1 ++ (expandAll rest (((expandAll layers scope).2 ++ [(name, (expandAll layers scope).1)]) ++ scope)).1 ∧
      (expandAll (.list layers :: rest) scope).1 = (expandAll layers scope).1 ++ (expandAll rest ((expandAll layers scope).2 ++ scope)).1 := by
  constructor <;> (rw [expandAll, expand])

/-! ### Witnesses -/

set_option synthInstance.maxSize 2000
set_option synthInstance.maxHeartbeats 200000

instance decEqExcept {ε γ : Type} [DecidableEq ε] [DecidableEq γ] : DecidableEq (Except ε γ)
  | .ok a, .ok b => if h : a = b then isTrue (by rw [h]) else isFalse (by intro e; injection e with e; exact h e)
  | .error a, .error b => if h : a = b then isTrue (by rw [h]) else isFalse (by intro e; injection e with e; exact h e)
  | .ok _, .error _ => isFalse (by intro e; cases e)
  | .error _, .ok _ => isFalse (by intro e; cases e)

/-- Layers announce the size given for them, and everything can be retrieved with the size of the first tensor. -/
def sizes (f : Nat → Nat) : SpecFns Nat := ⟨fun id _ => .ok (f id), fun _ bs => .ok (bs.headD 0)⟩

/-- Tensors are the lists of the layers they went through; temporal layers also note and count their uses. -/
def trace : Fns (List Nat) Nat where
  plain id x := x ++ [id]
  random id _ x := x ++ [id]
  stateful id _ x := x ++ [id]
  temporal id x i := (x ++ [id, i], i + 1)
  retrieve id xs := xs.flatten ++ [id]

def mode : Mode := ⟨true, true⟩

def dense : Spec := .layer "dense" none .plain []

/-- The specification of a network, with numbers from `next`. -/
def labelled (next : Nat) (specs : List Spec) : LSpec := (label (.list specs) next []).1

/-- A network of the policy reusing its first layer, and one of the baseline, both with default names. -/
def twoNetworks : List (LSpec × Inputs Nat) :=
  [(labelled 0 [dense, dense, .layer "reuse" none (.reuse "dense0") []], .single 8), (labelled 10 [dense], .single 8)]

/-- The results of the networks. -/
def outputs (S : SpecFns Nat) (ps : List (LSpec × Inputs Nat)) (inputs : Inputs (List Nat)) (internals : List (String × Nat)) :
    Except NError (List (Except NError (List Nat × List (String × List Nat) × List (String × Nat)))) :=
  match networks S ps [] with
  | .error e => .error e
  | .ok (ns, R) => .ok (ns.map fun n => n.apply trace mode 10 R inputs internals)

/-- C84 is violated: the third layer of the policy network is to be its first one again, but the first layer of the baseline network is used. -/
theorem redefined_violation : outputs (sizes fun _ => 8) twoNetworks (.single []) [] = .ok [.ok ([0, 1, 10], [], []), .ok ([10], [], [])] ∧
    stepsOf (twoNetworks.map Prod.fst) [] = [[.plain 0, .plain 1, .plain 0], [.plain 10]] := by
  constructor <;> decide +kernel

/-- C84 is violated within one network, too: a layer with the name of a reused one. -/
theorem repeated_violation :
    outputs (sizes fun _ => 8) [(labelled 0 [.layer "dense" (some "a") .plain [], .layer "reuse" none (.reuse "a") [], .layer "dense" (some "a") .plain []], .single 8)]
      (.single []) [] = .ok [.ok ([0, 2, 2], [], [])] := by decide +kernel

/-- Not vacuous: reused layers, blocks and temporal layers in two networks. -/
def rich : List (LSpec × Inputs Nat) :=
  [(labelled 0 [.layer "dense" (some "a") .plain ["activation"], .block (some "b") [.layer "reuse" (some "c") (.reuse "a") [], .layer "lstm" none .temporal []],
      .layer "register" none (.register "t") []], .single 8),
    (labelled 10 [.list [.layer "retrieve" none (.retrieve ["state"]) []], .layer "reuse" (some "d") (.reuse "a") []], .single 8)]

example : outputs (sizes fun _ => 8) rich (.single []) [("lstm0", 5)] =
    .ok [.ok ([0, 0, 3, 5], [], [("lstm0", 6)]), .ok ([10, 0], [], [("lstm0", 5)])] := by decide +kernel

example : StableAll (rich.map Prod.fst) [] := by
  refine ⟨⟨trivial, ⟨?_, trivial, trivial⟩, trivial, trivial⟩, ⟨⟨trivial, trivial⟩, ?_, trivial⟩, trivial⟩
  · show "a" ∉ _
    decide
  · show "a" ∉ _
    decide

example : stepsOf (rich.map Prod.fst) [] =
    [[.plain 0, .plain 0, .temporal 3 "lstm0", .register "t"], [.retrieve 10 ["state"], .plain 0]] := by decide +kernel

/-! ### C85: the announced specification -/

section
variable [DecidableEq β] {S : SpecFns β}

/-- C85: the output of a network is as announced, if its layers compute what they announce. Missing: reused layers whose name is used again later
(`announced_violation`). -/
theorem announced_partial {Has : α → β → Prop} {F : Fns α ι} (hsound : Sound Has S F) (ps : List (LSpec × Inputs β)) (ns : List (Network β)) (R : Reg β)
    (h : networks S ps [] = .ok (ns, R)) (hst : StableAll (ps.map Prod.fst) []) (hin : InnerKeepAll S (ps.map Prod.fst)) (i : Nat) (n : Network β)
    (p : LSpec × Inputs β) (hn : ns[i]? = some n) (hp : ps[i]? = some p) (l : Nat) (ts : List (Nat × String)) (hts : n.internalsSpec l R = .ok ts)
    (m : Mode) (limit : Nat) (inputs : Inputs α) (hio : InputsOk Has inputs p.2) (states : Nat × String → ι) (internals : List (String × ι))
    (hi : ∀ k ∈ ts, internals.lookup k.2 = some (states k)) (r : α × List (String × α) × List (String × ι))
    (hr : n.apply F m limit R inputs internals = .ok r) : Has r.1 n.out := by
  have hlen : ∀ (ls : List LSpec) (scope : Scope), (stepsOf ls scope).length = ls.length := by
    intro ls
    induction ls with
    | nil => intro _; rfl
    | cons l ls ih => intro scope; rw [stepsOf, List.length_cons, List.length_cons, ih]
  have hi' : i < (stepsOf (ps.map Prod.fst) []).length := by
    rw [hlen, List.length_map]
    exact (List.getElem?_eq_some_iff.mp hp).1
  have hs := List.getElem?_eq_getElem hi'
  obtain ⟨e, he, hx, -⟩ := result_partial ps ns R h hst i n _ hn hs l ts hts F m limit inputs states internals hi r hr
  have hl := networks_leads (m := m) hsound ps [] (ns, R) h hin [] (by intro l o i h; cases h) i n _ p hn hs hp
  rw [hx]
  exact (hl _ _ he hio.1 hio.2).1

end

/-- Tensors of the witness are as announced if their last layer has that size. -/
def hasSize (f : Nat → Nat) (x : List Nat) (b : Nat) : Prop := (x.map f).getLastD 8 = b

/-- The layers of the witness compute what they announce. -/
theorem trace_sound (f : Nat → Nat) : Sound (ι := Nat) (hasSize f) ⟨fun id _ => .ok (f id), fun id _ => .ok (f id)⟩
    ⟨fun id x => x ++ [id], fun id _ x => x ++ [id], fun id _ x => x ++ [id], fun id x i => (x ++ [id], i), fun id xs => xs.flatten ++ [id]⟩ := by
  have key : ∀ (x : List Nat) (id b' : Nat), (Except.ok (f id) : Except NError Nat) = .ok b' → hasSize f (x ++ [id]) b' := by
    intro x id b' h
    injection h with h
    rw [hasSize, List.map_append, List.map_singleton, List.getLastD_eq_getLast?, List.getLast?_append]
    exact h
  exact ⟨fun id _ b' x h _ => key x id b' h, fun id _ b' x _ h _ => key x id b' h, fun id _ b' x _ h _ => key x id b' h,
    fun id _ b' x _ h _ => key x id b' h, fun id _ b' xs h _ _ => key xs.flatten id b' h⟩

/-- C85 is violated: the reused layer of the policy network has size 16, but the layer of the baseline network with the same name has size 4. -/
theorem announced_violation :
    (networks (sizes fun id => if id = 0 then 16 else if id = 10 then 4 else 8)
        [(labelled 0 [dense, .layer "dense" none .plain [], .layer "reuse" none (.reuse "dense0") []], .single 8), (labelled 10 [dense], .single 8)] []).toOption.map
      (fun r => r.1.map fun n => (n.out, (n.apply trace mode 10 r.2 (.single []) []).toOption.map Prod.fst)) =
    some [(16, some [0, 1, 10]), (4, some [10])] := by decide +kernel

/-! ### C86: temporal layers -/

section
variable [DecidableEq β] {S : SpecFns β}

/-- C86: the internals are exactly those of the temporal layers of the network, each one with its own name. Missing: networks with two temporal layers
of the same name, and reused temporal layers, have no internals at all (`blocks_violation`, `reused_violation`). -/
theorem internals_partial (ps : List (LSpec × Inputs β)) (ns : List (Network β)) (R : Reg β) (h : networks S ps [] = .ok (ns, R))
    (hst : StableAll (ps.map Prod.fst) []) (i : Nat) (n : Network β) (steps : List Step) (hn : ns[i]? = some n)
    (hs : (stepsOf (ps.map Prod.fst) [])[i]? = some steps) :
    ∃ N, ∀ limit, N ≤ limit → n.internalsSpec limit R =
      if ((temporalSteps steps).map Prod.snd).Nodup then .ok (temporalSteps steps) else .error .value := by
  obtain ⟨⟨N, hg⟩, ho⟩ := networks_steps ps [] (ns, R) h [] [] hst (by intro l o h; cases h) (by intro l o _ h; exact h) i n steps hn hs
  refine ⟨N, fun limit hl => ?_⟩
  rw [Network.internalsSpec, (hg limit hl).2]

/-- C86: the horizon is the largest one of the temporal layers. -/
theorem horizon_partial (ps : List (LSpec × Inputs β)) (ns : List (Network β)) (R : Reg β) (h : networks S ps [] = .ok (ns, R))
    (hst : StableAll (ps.map Prod.fst) []) (i : Nat) (n : Network β) (steps : List Step) (hn : ns[i]? = some n)
    (hs : (stepsOf (ps.map Prod.fst) [])[i]? = some steps) (horizon : Nat → Nat) :
    ∃ N, ∀ limit, N ≤ limit → ∃ H, n.maxPastHorizon horizon limit R = .ok H ∧ (∀ k ∈ temporalSteps steps, horizon k.1 ≤ H) ∧
      (H = 0 ∨ ∃ k ∈ temporalSteps steps, H = horizon k.1) := by
  obtain ⟨⟨N, hg⟩, ho⟩ := networks_steps ps [] (ns, R) h [] [] hst (by intro l o h; cases h) (by intro l o _ h; exact h) i n steps hn hs
  refine ⟨N, fun limit hl => ⟨_, by rw [Network.maxPastHorizon, (hg limit hl).2], ?_, ?_⟩⟩
  · intro k hk
    revert hk
    generalize temporalSteps steps = keys
    intro hk
    induction keys with
    | nil => cases hk
    | cons a l ih =>
      rw [List.foldr_cons]
      rcases List.mem_cons.mp hk with rfl | hk
      · exact Nat.le_max_left _ _
      · exact Nat.le_trans (ih hk) (Nat.le_max_right _ _)
  · induction temporalSteps steps with
    | nil => exact .inl rfl
    | cons a l ih =>
      rw [List.foldr_cons]
      rcases Nat.le_total (horizon a.1) (l.foldr (fun t m => max (horizon t.1) m) 0) with hle | hle
      · rw [Nat.max_eq_right hle]
        rcases ih with h0 | ⟨k, hk, he⟩
        · exact .inl h0
        · exact .inr ⟨k, List.mem_cons_of_mem _ hk, he⟩
      · rw [Nat.max_eq_left hle]
        exact .inr ⟨a, List.mem_cons_self .., rfl⟩

end

def lstm : Spec := .layer "lstm" none .temporal []

/-- The internals of the first of these networks. -/
def internalsOf (ps : List (LSpec × Inputs Nat)) : Option (Except NError (List (Nat × String))) :=
  match networks (sizes fun _ => 8) ps [] with
  | .error _ => none
  | .ok (ns, R) => ns.head?.map fun n => n.internalsSpec 10 R

/-- C86 is violated: temporal layers in two blocks get the same default name, which is an error. -/
theorem blocks_violation :
    internalsOf [(labelled 0 [.block none [dense, lstm], .layer "retrieve" none (.retrieve ["state"]) [], .block none [dense, lstm]], .single 8)] =
      some (.error .value) := by decide +kernel

/-- C86 is violated: a temporal layer cannot be reused in the same network. -/
theorem reused_violation :
    internalsOf [(labelled 0 [lstm, .layer "retrieve" none (.retrieve ["state"]) [], .layer "reuse" none (.reuse "lstm0") []], .single 8)] =
      some (.error .value) := by decide +kernel

example : internalsOf rich = some (.ok [(3, "lstm0")]) := by decide +kernel

/-! ### C87: rows -/

/-- C87: the output of a network with temporal layers has one row for each timestep, if no tensor is retrieved after a temporal layer. Missing: tensors
retrieved after a temporal layer (`rows_violation`). -/
theorem rows_partial (steps : List Step) (m : Mode) (hn : noRetrieveAfter steps = true) (inputs : Inputs β) (states : Nat × String → Unit)
    (e : Exec Rows Unit) (h : exec rowFns m steps (start (rowInputs inputs) states) = .ok e) :
    e.x = if temporalSteps steps = [] then .all else .one := by
  refine rows_steps m steps hn _ e h ?_
  cases inputs with
  | single v =>
    refine ⟨rfl, rfl, ?_⟩
    intro t w hw
    change (List.lookup t [("state", Rows.all)]) = some w at hw
    by_cases ht : t = "state"
    · subst ht; rw [lookup_cons_self] at hw; injection hw with hw; exact hw.symm
    · rw [lookup_cons_ne _ _ ht] at hw; cases hw
  | named n v rest =>
    refine ⟨rfl, rfl, ?_⟩
    intro t w hw
    change ((n, Rows.all) :: rest.map fun p => (p.1, Rows.all)).lookup t = some w at hw
    by_cases ht : t = n
    · subst ht; rw [lookup_cons_self] at hw; injection hw with hw; exact hw.symm
    · rw [lookup_cons_ne _ _ ht] at hw
      clear h
      induction rest with
      | nil => cases hw
      | cons p rest ih =>
        rw [List.map_cons] at hw
        by_cases hp : t = p.1
        · rw [hp, lookup_cons_self] at hw; injection hw with hw; exact hw.symm
        · rw [lookup_cons_ne _ _ hp] at hw; exact ih hw

/-- C87: the same for networks created one after the other, in which no name of a reused layer is given again. -/
theorem network_rows_partial [DecidableEq β] {S : SpecFns β} (ps : List (LSpec × Inputs β)) (ns : List (Network β)) (R : Reg β)
    (h : networks S ps [] = .ok (ns, R)) (hst : StableAll (ps.map Prod.fst) []) (i : Nat) (n : Network β) (steps : List Step) (hn : ns[i]? = some n)
    (hs : (stepsOf (ps.map Prod.fst) [])[i]? = some steps) (l : Nat) (ts : List (Nat × String)) (hts : n.internalsSpec l R = .ok ts)
    (m : Mode) (limit : Nat) (inputs : Inputs β) (internals : List (String × Unit)) (hi : ∀ k ∈ ts, internals.lookup k.2 = some ())
    (hno : noRetrieveAfter steps = true) (r : Rows × List (String × Rows) × List (String × Unit))
    (hr : n.apply rowFns m limit R (rowInputs inputs) internals = .ok r) : r.1 = if temporalSteps steps = [] then .all else .one := by
  obtain ⟨e, he, hx, -⟩ := result_partial ps ns R h hst i n steps hn hs l ts hts rowFns m limit (rowInputs inputs) (fun _ => ()) internals hi r hr
  rw [hx]
  exact rows_partial steps m hno inputs _ e he

/-- C87: two temporal layers in succession are rejected, and otherwise at most one is applied. -/
theorem successive (F : Fns α ι) (m : Mode) (id id' : Nat) (name name' : String) (between after : List Step) (e : Exec α ι)
    (hb : ∀ st ∈ between, (∃ i, st = .plain i) ∨ (∃ i, st = .random i) ∨ ∃ i, st = .stateful i) (hc : e.check = false) :
    exec F m (.temporal id name :: (between ++ .temporal id' name' :: after)) e = .error .successive := by
  have key : ∀ (between : List Step), (∀ st ∈ between, (∃ i, st = .plain i) ∨ (∃ i, st = .random i) ∨ ∃ i, st = .stateful i) → ∀ e : Exec α ι,
      e.check = true → exec F m (between ++ .temporal id' name' :: after) e = .error .successive := by
    intro between
    induction between with
    | nil =>
      intro _ e he
      rw [List.nil_append, exec, chain, execStep, if_pos he]
    | cons st between ih =>
      intro hb e he
      rw [List.cons_append, exec, chain]
      have ih' := ih (fun s hs => hb s (List.mem_cons_of_mem _ hs))
      rcases hb st (List.mem_cons_self ..) with ⟨i, rfl⟩ | ⟨i, rfl⟩ | ⟨i, rfl⟩
      · exact ih' { e with x := F.plain i e.x } he
      · exact ih' { e with x := F.random i m.deterministic e.x } he
      · exact ih' { e with x := F.stateful i m.independent e.x } he
  rw [exec, chain, execStep, hc]
  exact key between hb _ rfl

/-- The rows of the results. -/
def rowsOf (specs : List Spec) (inputs : Inputs Nat) (internals : List (String × Unit)) : Option (Except NError Rows) :=
  match networks (sizes fun _ => 8) [(labelled 0 specs, inputs)] [] with
  | .error _ => none
  | .ok (ns, R) => ns.head?.map fun n => (n.apply rowFns mode 10 R (rowInputs inputs) internals).map Prod.fst

/-- C87 is violated: after a temporal layer a state is retrieved, which still has the rows of the past horizon; and joining the two, as in the
documented networks with several states, is impossible. -/
theorem rows_violation :
    rowsOf [lstm, .layer "register" none (.register "r") [], .layer "retrieve" none (.retrieve ["state"]) []] (.single 8) [("lstm0", ())] = some (.ok .all) ∧
      rowsOf [lstm, .layer "register" none (.register "r") [], .layer "retrieve" none (.retrieve ["r", "state"]) []] (.single 8) [("lstm0", ())] =
        some (.ok .bad) ∧
      rowsOf [lstm, .layer "register" none (.register "r") [], .layer "retrieve" none (.retrieve ["r"]) [], lstm] (.single 8) [("lstm0", ()), ("lstm1", ())] =
        some (.ok .bad) := by
  refine ⟨?_, ?_, ?_⟩ <;> decide +kernel

example : rowsOf [dense, lstm, dense] (.single 8) [("lstm0", ())] = some (.ok .one) := by decide +kernel

/-! ### C88: inputs and registered tensors -/

/-- C88: a registered tensor, like an input, is the same at every later step. -/
theorem registered_kept (F : Fns α ι) (m : Mode) (before after : List Step) (e e1 e2 : Exec α ι) (h1 : exec F m before e = .ok e1)
    (h2 : exec F m (before ++ after) e = .ok e2) (t : String) (v : α) (hv : e1.tensors.lookup t = some v) : e2.tensors.lookup t = some v := by
  rw [exec_append, h1] at h2
  exact exec_tensors F m after e1 e2 h2 t v hv

/-- C88: retrieving a single input gives that input, wherever it is retrieved. -/
theorem retrieved (F : Fns α ι) (m : Mode) (before : List Step) (inputs : Inputs α) (states : Nat × String → ι) (e : Exec α ι)
    (h : exec F m before (start inputs states) = .ok e) (t : String) (v : α) (hv : inputs.tensors.lookup t = some v) (id : Nat) :
    exec F m (before ++ [.retrieve id [t]]) (start inputs states) = .ok { e with x := F.retrieve id [v], check := false } := by
  have := exec_tensors F m before _ e h t v hv
  rw [exec_append, h]
  show exec F m [.retrieve id [t]] e = _
  rw [exec, chain_single, execStep, lookupAll, this, lookupAll]

/-- C88: every input can be retrieved, as "state" if there is a single one without name, and otherwise by its name; then the layer gets this input. -/
theorem inputs_retrieved [DecidableEq β] (S : SpecFns β) (F : Fns α ι) (m : Mode) (states : Nat × String → ι) (id : Nat) (name : String) (inner : List String) :
    (∀ (v : α), exec F m [.retrieve id ["state"]] (start (.single v) states) = .ok { start (.single v) states with x := F.retrieve id [v] }) ∧
    (∀ (n : String) (v : α) (rest : List (String × α)) (t : String) (w : α), ((n, v) :: rest).lookup t = some w →
      exec F m [.retrieve id [t]] (start (.named n v rest) states) = .ok { start (.named n v rest) states with x := F.retrieve id [w] }) ∧
    (∀ (b c : β) (reg : Reg β), S.agg id [b] = .ok c →
      ∃ r, network S (.layer id name (.retrieve ["state"]) inner) (.single b) none reg = .ok r ∧ r.1.out = c) ∧
    ∀ (n : String) (b : β) (rest : List (String × β)) (t : String) (w c : β) (reg : Reg β), ((n, b) :: rest).lookup t = some w → S.agg id [w] = .ok c →
      ∃ r, network S (.layer id name (.retrieve [t]) inner) (.named n b rest) none reg = .ok r ∧ r.1.out = c := by
  refine ⟨fun v => retrieved F m [] (.single v) states _ rfl "state" v rfl id,
    fun n v rest t w h => retrieved F m [] (.named n v rest) states _ rfl t w h id, ?_, ?_⟩
  · intro b c reg h
    have : netLayer S netInvalid (.layer id name (.retrieve ["state"]) inner) ⟨reg, b, [("state", b)]⟩ =
        .ok (.leaf id name (.retrieve ["state"]) none c, ⟨(name, some (.leaf id name (.retrieve ["state"]) none c)) :: reg, c, [("state", b)]⟩) := by
      have hl : lookupAll ["state"] [("state", b)] = some [b] := rfl
      rw [netLayer, createRetrieve, hl]
      dsimp only
      rw [if_neg (by simp), h]
      rfl
    rw [network]
    rw [show netLayer S netInvalid (.layer id name (.retrieve ["state"]) inner) ⟨reg, (Inputs.single b).value, (Inputs.single b).tensors⟩ = _ from this]
    exact ⟨_, rfl, rfl⟩
  · intro n b rest t w c reg hw h
    have hl : lookupAll [t] ((n, b) :: rest) = some [w] := by rw [lookupAll, hw, lookupAll]
    have : netLayer S netInvalid (.layer id name (.retrieve [t]) inner) ⟨reg, b, (n, b) :: rest⟩ =
        .ok (.leaf id name (.retrieve [t]) none c, ⟨(name, some (.leaf id name (.retrieve [t]) none c)) :: reg, c, (n, b) :: rest⟩) := by
      rw [netLayer, createRetrieve, hl]
      dsimp only
      rw [if_neg (by simp), h]
      rfl
    rw [network]
    rw [show netLayer S netInvalid (.layer id name (.retrieve [t]) inner) ⟨reg, (Inputs.named n b rest).value, (Inputs.named n b rest).tensors⟩ = _ from this]
    exact ⟨_, rfl, rfl⟩

/-- C88: what is retrieved has to be registered before. -/
theorem unregistered [DecidableEq β] (S : SpecFns β) (invalid : Kind → Bool) (id : Nat) (name : String) (ts inner : List String) (st : Build β) (t : String)
    (ht : t ∈ ts) (hn : st.tensors.lookup t = none) : netLayer S invalid (.layer id name (.retrieve ts) inner) st = .error .existsNot := by
  have : lookupAll ts st.tensors = none := by
    have h := lookupAll_isSome ts st.tensors
    cases hl : lookupAll ts st.tensors with
    | none => rfl
    | some v =>
      rw [hl] at h
      have h' := List.all_eq_true.mp h.symm t ht
      rw [hn] at h'
      cases h'
  rw [netLayer, createRetrieve, this]

/-- C88: a name is registered once. -/
theorem twice [DecidableEq β] (S : SpecFns β) (id : Nat) (name t : String) (inner : List String) (st : Build β) (v : β)
    (hv : st.tensors.lookup t = some v) : netLayer S netInvalid (.layer id name (.register t) inner) st = .error .exists_ := by
  rw [netLayer.eq_def]
  dsimp only
  rw [create]
  show (if (st.tensors.lookup t).isSome then _ else _) = _
  rw [hv]
  rfl

/-- C88 is violated: with several inputs the first layer is to be `retrieve`, but any other one is accepted, and gets the first input. -/
theorem several_violation :
    outputs (sizes fun _ => 8) [(labelled 0 [dense], .named "a" 8 [("b", 8)])] (.named "a" [100] [("b", [200])]) [] = .ok [.ok ([100, 0], [], [])] := by decide +kernel

example : outputs (sizes fun _ => 8) [(labelled 0 [.layer "retrieve" none (.retrieve ["b", "a"]) [], dense], .named "a" 8 [("b", 8)])]
    (.named "a" [100] [("b", [200])]) [] = .ok [.ok ([200, 100, 0, 1], [], [])] := by decide +kernel

/-! ### C89: additional outputs -/

/-- C89: a network with outputs returns the tensors registered under their names, so that actions with an output get it and others the embedding.
Missing: networks never have outputs, since the argument is dropped (`outputs_violation`). -/
theorem outputs_partial (F : Fns α ι) (m : Mode) (limit : Nat) (R : Reg β) (n : Network β) (os : List String) (ho : n.outputs = some os)
    (inputs : Inputs α) (internals : List (String × ι)) (r : α × List (String × α) × List (String × ι))
    (h : n.apply F m limit R inputs internals = .ok r) :
    ∃ s, run F m R limit n.layers (begin inputs internals) = .ok s ∧ r.1 = s.x ∧
      ∀ action, actionInput r.1 r.2.1 action =
        if action ++ "-embedding" ∈ os then (s.tensors.lookup (action ++ "-embedding")).getD s.x else s.x := by
  obtain ⟨s, h1, h2, h3, -⟩ := apply_ok h
  refine ⟨s, h1, h2, ?_⟩
  intro action
  rw [ho, chosen] at h3
  split at h3
  · cases h3
  · rename_i vs hv
    injection h3 with h3
    rw [actionInput, ← h3, h2]
    generalize action ++ "-embedding" = t
    clear ho h3 h1 h2 h
    induction os generalizing vs with
    | nil => rw [if_neg (List.not_mem_nil)]; rfl
    | cons o os ih =>
      rw [lookupAll] at hv
      split at hv
      · rename_i v vs' g1 g2
        injection hv with hv
        subst hv
        rw [List.zip_cons_cons]
        by_cases ht : t = o
        · subst ht
          rw [lookup_cons_self, if_pos (List.mem_cons_self ..), g1]
        · rw [lookup_cons_ne _ _ ht, ih _ g2]
          by_cases hm : t ∈ os
          · rw [if_pos hm, if_pos (List.mem_cons_of_mem _ hm)]
          · rw [if_neg hm, if_neg (by rw [List.mem_cons, not_or]; exact ⟨ht, hm⟩)]
      · cases hv

example : (⟨.list [.leaf 0 "d" .plain (some 8) 8, .leaf 1 "r" (.register "a-embedding") (some 8) 8, .leaf 2 "e" .plain (some 8) 8], 8, [], some ["a-embedding"]⟩ :
    Network Nat).apply trace mode 10 [] (.single []) [] = .ok ([0, 2], [("a-embedding", [0])], []) := by decide +kernel

/-- C89: if there are outputs, those among them which are registered are announced, each with its own specification; without outputs none are. -/
theorem outputs_announced (n : Network β) :
    (n.outputs = none → n.announced = []) ∧
    ∀ os, n.outputs = some os → ∀ o b, (o, b) ∈ n.announced ↔ o ∈ os ∧ n.tensors.lookup o = some b := by
  constructor
  · intro h; rw [Network.announced, h]
  · intro os h o b
    rw [Network.announced, h]
    dsimp only
    rw [List.mem_filterMap]
    constructor
    · rintro ⟨o', h1, h2⟩
      rw [Option.map_eq_some_iff] at h2
      obtain ⟨b', h2, h3⟩ := h2
      obtain ⟨rfl, rfl⟩ := Prod.mk.inj h3
      exact ⟨h1, h2⟩
    · rintro ⟨h1, h2⟩
      exact ⟨o, h1, by rw [h2]; rfl⟩

example : (("a", 3) : String × Nat) ∈ (⟨.list [], 8, [("a", 3)], some ["b", "a"]⟩ : Network Nat).announced :=
  ((outputs_announced (⟨.list [], 8, [("a", 3)], some ["b", "a"]⟩ : Network Nat)).2 _ rfl _ _).mpr ⟨by simp, rfl⟩

/-- C89: a policy asks for the output `<action>-embedding` of every action, unless it has a single output. -/
theorem outputs_asked (actions : List String) :
    policyOutputs true actions = none ∧ ∃ os, policyOutputs false actions = some os ∧ ∀ o, o ∈ os ↔ ∃ a ∈ actions, o = a ++ "-embedding" := by
  refine ⟨rfl, _, rfl, fun o => ?_⟩
  rw [List.mem_map]
  constructor
  · rintro ⟨a, h, e⟩; exact ⟨a, h, e.symm⟩
  · rintro ⟨a, h, e⟩; exact ⟨a, h, e.symm⟩

/-- C89 is violated, if outputs are given: where one is not registered, which is announced as if actions then used the embedding, the application fails. -/
theorem outputs_missing_violation (F : Fns α ι) (m : Mode) (limit : Nat) (R : Reg β) (n : Network β) (os : List String) (ho : n.outputs = some os)
    (inputs : Inputs α) (internals : List (String × ι)) (s : Run α ι) (hs : run F m R limit n.layers (begin inputs internals) = .ok s)
    (o : String) (hm : o ∈ os) (hn : s.tensors.lookup o = none) : n.apply F m limit R inputs internals = .error .key := by
  have : lookupAll os s.tensors = none := by
    have h := lookupAll_isSome os s.tensors
    cases hl : lookupAll os s.tensors with
    | none => rfl
    | some v =>
      rw [hl] at h
      have h' := List.all_eq_true.mp h.symm o hm
      rw [hn] at h'
      cases h'
  rw [Network.apply, hs]
  dsimp only
  rw [ho, chosen, this]

example : (⟨.list [.leaf 0 "d" .plain (some 8) 8, .leaf 1 "r" (.register "a-embedding") (some 8) 8, .leaf 2 "e" .plain (some 8) 8], 8, [],
    some ["a-embedding", "b-embedding"]⟩ : Network Nat).apply trace mode 10 [] (.single []) [] = .error .key := by decide +kernel

/-- C89 is violated: the documented network with an additional output for one of two actions; both actions get the final output. -/
theorem outputs_violation :
    (network (sizes fun _ => 8) (labelled 0 [dense, .layer "register" none (.register "action1-embedding") [], dense]) (.single 8)
        (policyOutputs false ["action1", "action2"]) []).toOption.map (fun r =>
      (r.1.announced, (r.1.apply trace mode 10 r.2 (.single []) []).toOption.map fun o =>
        (actionInput o.1 o.2.1 "action1", actionInput o.1 o.2.1 "action2"))) =
    some ([], some ([0, 2], [0, 2])) := by decide +kernel

/-! ### C91: preprocessing networks -/

section
variable [DecidableEq β] {S : SpecFns β}

/-- C91: an accepted preprocessing network can be applied to any tensor, its layers in the order given, and every preprocessing layer is reset once.
Missing: blocks, reused layers, and retrieving the input (`block_violation`, `input_violation`). -/
theorem preprocess_partial (allowed : Bool) (l : LSpec) (input : β) (reg : Reg β) (r : Network β × Reg β) (h : preprocessor S allowed l input reg = .ok r)
    (hf : Flat l) (F : Fns α ι) (m : Mode) (x : α) (states : Nat × String → ι) :
    (∃ e, exec F m (expand l []).1 ⟨x, [("input", x)], states, false⟩ = .ok e ∧ r.1.preprocess F m x = .ok e.x) ∧ resets r.1.layers = prepIds l := by
  obtain ⟨q, h1, h2⟩ := preprocessor_ok h
  constructor
  · obtain ⟨s', g1, g2, -⟩ := runPrep_ok F m l _ q h1 hf [] ⟨x, [("input", x)], [], false⟩ (by
      intro t ht1 ht2
      rw [lookup_cons_ne _ _ ht1, lookup_cons_ne _ _ ht2]
      rfl)
    have hno : temporalSteps (expand l []).1 = [] := by
      cases ht : temporalSteps (expand l []).1 with
      | nil => rfl
      | cons k ks => exact (noTemporal F m (expand l []).1 k (by rw [ht]; exact List.mem_cons_self ..) _ _ g2 rfl).elim
    have hsame := steps_same F m (keys := []) List.nodup_nil (expand l []).1 (by rw [hno]; intro k hk; cases hk)
      (s := ⟨x, [("input", x)], [], false⟩) (e := ⟨x, [("input", x)], states, false⟩) ⟨rfl, rfl, rfl, by intro k hk; cases hk⟩
    rw [g2] at hsame
    cases hb : exec F m (expand l []).1 ⟨x, [("input", x)], states, false⟩ with
    | error y => rw [hb] at hsame; exact hsame.elim
    | ok e =>
      rw [hb] at hsame
      refine ⟨e, rfl, ?_⟩
      rw [Network.preprocess, h2, g1]
      exact congrArg Except.ok hsame.1.1
  · rw [h2]
    exact resets_eq l _ q h1 hf

/-- C91: temporal layers are rejected. -/
theorem temporal_rejected (allowed : Bool) (id : Nat) (name : String) (inner : List String) (input : β) (reg : Reg β) (out : β)
    (ho : S.out id input = .ok out) : preprocessor S allowed (.layer id name .temporal inner) input reg = .error .type := by
  rw [preprocessor, netLayer.eq_def]
  dsimp only
  rw [create.eq_def]
  dsimp only [Inputs.value]
  rw [ho]
  cases allowed <;> rfl

end

def clip : Spec := .layer "clipping" none .prep []

/-- The result of a preprocessing network, and what it resets. -/
def prepOf (specs : List Spec) : Option (Except NError (List Nat) × List Nat) :=
  (preprocessor (sizes fun _ => 8) true (labelled 0 specs) 8 []).toOption.map fun r => (r.1.preprocess trace mode [], resets r.1.layers)

/-- C91 is violated: blocks and reused layers are accepted, but cannot be applied, nor are the layers of a block reset; even a temporal layer is accepted
in a block. -/
theorem block_violation :
    prepOf [.block none [clip, dense]] = some (.error .notImplemented, []) ∧ prepOf [clip, .layer "reuse" none (.reuse "clipping0") []] = some (.error .notImplemented, [0]) ∧
      prepOf [.block none [lstm]] = some (.error .notImplemented, []) := by
  refine ⟨?_, ?_, ?_⟩ <;> decide +kernel

/-- C91 is violated: the input is announced as `state` but registered as `input`, so that it cannot be retrieved under either name. -/
theorem input_violation :
    prepOf [clip, .layer "retrieve" none (.retrieve ["state"]) []] = some (.error .existsNot, [0]) ∧
      prepOf [clip, .layer "retrieve" none (.retrieve ["input"]) []] = none := by
  refine ⟨?_, ?_⟩ <;> decide +kernel

example : prepOf [clip, .layer "register" none (.register "t") [], dense, .list [.layer "retrieve" none (.retrieve ["t"]) [], clip]] =
    some (.ok [0, 3, 4], [0, 4]) := by decide +kernel

end Verif.Props.Net
