import Verif.Net.Accept
import Verif.Net.Names

/-! # Which layered networks can be created, and how their layers are named -/

namespace Verif.Props.Build

open Verif.Net

variable {β : Type} [DecidableEq β] {S : SpecFns β}

/-- C92: a network without reused layers can be created exactly if every layer accepts the specification of the tensor before it, tensors are retrieved
after they are registered, once each, and registered once, blocks are as they should be, and no layer outside of blocks is for preprocessing; its
specification is that of the last tensor. Missing: reused layers, see `reuse` and `reuse_rejected`. -/
theorem accepted_partial (l : LSpec) (hr : NoReuse l) (inputs : Inputs β) (outputs : Option (List String)) (reg : Reg β) :
    ((∃ r, network S l inputs outputs reg = .ok r) ↔
      Valid (fun k => k = .prep) l ∧ (announceSteps S (expand l []).1 (inputs.value, inputs.tensors)).isSome) ∧
    ∀ r, network S l inputs outputs reg = .ok r → announceSteps S (expand l []).1 (inputs.value, inputs.tensors) = some (r.1.out, r.1.tensors) := by
  have h := net_accept (S := S) netInvalid l hr [] ⟨reg, inputs.value, inputs.tensors⟩
  rw [network]
  cases hn : netLayer S netInvalid l ⟨reg, inputs.value, inputs.tensors⟩ with
  | error e =>
    rw [hn] at h
    refine ⟨⟨fun ⟨r, hr⟩ => (by cases hr), fun ⟨h1, h2⟩ => ?_⟩, fun r hr => (by cases hr)⟩
    rcases h with h | h
    · exact (h h1).elim
    · change announceSteps S (expand l []).1 (inputs.value, inputs.tensors) = none at h
      rw [h] at h2; cases h2
  | ok q =>
    rw [hn] at h
    have h2 : announceSteps S (expand l []).1 (inputs.value, inputs.tensors) = some (q.2.out, q.2.tensors) := h.2
    refine ⟨⟨fun _ => ⟨h.1, by rw [h2]; rfl⟩, fun _ => ⟨_, rfl⟩⟩, fun r hr => ?_⟩
    injection hr with hr
    rw [h2, ← hr]

/-- Sizes between layers: each layer accepts the size given for it only. -/
def chainSizes : SpecFns Nat := ⟨fun id b => if b = id then .ok (id + 1) else .error .mismatch, fun _ bs => .ok (bs.headD 0)⟩

def accepted : LSpec := .list [.layer 3 "a" .plain [], .block "b" [.layer 4 "a" .temporal [], .layer 5 "c" .prep []], .layer 6 "d" (.register "t") [],
  .layer 7 "e" (.retrieve ["state"]) []]

example : ∃ r, network chainSizes accepted (.single 3) none [] = .ok r :=
  (accepted_partial accepted ⟨nofun, ⟨nofun, nofun, trivial⟩, nofun, nofun, trivial⟩ _ _ _).1.mpr
    ⟨⟨rfl, ⟨nofun, by decide, ⟨nofun, nofun⟩, ⟨nofun, nofun⟩, trivial⟩, rfl, rfl, trivial⟩, by decide⟩

def rejected : LSpec := .list [.layer 3 "a" .plain [], .layer 3 "b" .plain []]

example : ¬ ∃ r, network chainSizes rejected (.single 3) none [] = .ok r := by
  rw [(accepted_partial rejected ⟨nofun, nofun, trivial⟩ _ _ _).1]
  rintro ⟨-, h⟩
  revert h
  decide

/-- C91: preprocessing without reused layers is accepted exactly if the same conditions hold, no layer outside of blocks is temporal, and, unless
preprocessing layers are allowed, none outside of blocks is for preprocessing. -/
theorem preprocessing_accepted_partial (allowed : Bool) (l : LSpec) (hr : NoReuse l) (input : β) (reg : Reg β) :
    ((∃ r, preprocessor S allowed l input reg = .ok r) ↔
      Valid (fun k => k = .temporal ∨ (allowed = false ∧ k = .prep)) l ∧ (announceSteps S (expand l []).1 (input, [("state", input)])).isSome) ∧
    ∀ r, preprocessor S allowed l input reg = .ok r → announceSteps S (expand l []).1 (input, [("state", input)]) = some (r.1.out, r.1.tensors) := by
  have hinv : (fun k => decide (k = .temporal ∨ (allowed = false ∧ k = .prep))) = prepInvalid allowed := by
    funext k
    cases allowed <;> cases k <;> rfl
  rw [hinv]
  have h := net_accept (S := S) (prepInvalid allowed) l hr [] ⟨reg, (Inputs.single input).value, (Inputs.single input).tensors⟩
  rw [preprocessor]
  cases hn : netLayer S (prepInvalid allowed) l ⟨reg, (Inputs.single input).value, (Inputs.single input).tensors⟩ with
  | error e =>
    rw [hn] at h
    refine ⟨⟨fun ⟨r, hr⟩ => (by cases hr), fun ⟨h1, h2⟩ => ?_⟩, fun r hr => (by cases hr)⟩
    rcases h with h | h
    · exact (h h1).elim
    · change announceSteps S (expand l []).1 (input, [("state", input)]) = none at h
      rw [h] at h2; cases h2
  | ok q =>
    rw [hn] at h
    have h2 : announceSteps S (expand l []).1 (input, [("state", input)]) = some (q.2.out, q.2.tensors) := h.2
    refine ⟨⟨fun _ => ⟨h.1, by rw [h2]; rfl⟩, fun _ => ⟨_, rfl⟩⟩, fun r hr => ?_⟩
    injection hr with hr
    rw [h2, ← hr]

example : ∃ r, preprocessor chainSizes true (.layer 3 "a" .prep []) 3 [] = .ok r :=
  (preprocessing_accepted_partial true (.layer 3 "a" .prep []) (show ∀ l, Kind.prep ≠ .reuse l from nofun) _ _).1.mpr ⟨rfl, by decide⟩

/-- C92: a layer or block which does not retrieve tensors can be reused after any other layers, under another name and if no layer got its name since,
exactly if the specification of the current tensor is that of its input; then the specification becomes that of its output. -/
theorem reuse (a : LSpec) (st st1 : Build β) (o : Obj β) (h : netLayer S netInvalid a st = .ok (o, st1))
    (ha : Reusable a)
    (after : List LSpec) (st2 : Build β) (os : List (Obj β)) (h2 : netLayers S netInvalid after st1 = .ok (os, st2)) (hn : a.name ∉ namesAll after)
    (id : Nat) (name : String) (hne : name ≠ a.name) (inner : List String) :
    (st2.out = st.out → ∃ o' st3, netLayer S netInvalid (.layer id name (.reuse a.name) inner) st2 = .ok (o', st3) ∧ st3.out = st1.out ∧ st3.tensors = st2.tensors) ∧
    (st2.out ≠ st.out → netLayer S netInvalid (.layer id name (.reuse a.name) inner) st2 = .error .mismatch) := by
  obtain ⟨h3, h4, h5⟩ := created netInvalid a st st1 o h ha
  have h6 : st2.reg.lookup a.name = some (some o) := ((netLayers_effect _ _ _ h2).1 _ hn).trans h3
  have hl : netLayer S netInvalid (.layer id name (.reuse a.name) inner) st2 =
      match createReuse id name a.name st2.out st2.reg with
      | .error e => .error e
      | .ok r => added netInvalid (.reuse a.name) st2 r := by
    rw [netLayer.eq_def]; rfl
  rw [hl, createReuse, h6]
  dsimp only
  rw [if_neg hne]
  dsimp only
  rw [h4]
  dsimp only
  constructor
  · intro he
    rw [if_pos he.symm]
    exact ⟨_, _, rfl, h5 _, rfl⟩
  · intro he
    rw [if_neg fun e => he e.symm]

/-- C92: a layer which was not defined cannot be reused, in the first network. -/
theorem reuse_rejected (before : List LSpec) (inputs : Inputs β) (st : Build β) (os : List (Obj β))
    (h : netLayers S netInvalid before ⟨[], inputs.value, inputs.tensors⟩ = .ok (os, st)) (l : String) (hl : l ∉ namesAll before)
    (id : Nat) (name : String) (inner : List String) : netLayer S netInvalid (.layer id name (.reuse l) inner) st = .error .value := by
  have h6 : st.reg.lookup l = none := (netLayers_effect _ _ _ h).1 _ hl
  rw [netLayer.eq_def]
  dsimp only
  rw [create.eq_def]
  dsimp only
  rw [createReuse, h6]

/-- C92: the activation and the dropout of a layer, created by the layer itself, can be reused under their names, if no layer got the name since, exactly
if the specification of the current tensor is that of the output of the layer, which they keep. -/
theorem reuse_inner (id : Nat) (name : String) (kind : Kind) (hk : kind.hasInner = true) (own : List String) (l : String) (hl : l ∈ own)
    (st st1 : Build β) (o : Obj β) (h : netLayer S netInvalid (.layer id name kind own) st = .ok (o, st1))
    (after : List LSpec) (st2 : Build β) (os : List (Obj β)) (h2 : netLayers S netInvalid after st1 = .ok (os, st2)) (hn : l ∉ namesAll after)
    (id' : Nat) (name' : String) (hne : name' ≠ l) (inner : List String) :
    (st2.out = st1.out → ∃ o' st3, netLayer S netInvalid (.layer id' name' (.reuse l) inner) st2 = .ok (o', st3) ∧ st3.out = st1.out ∧ st3.tensors = st2.tensors) ∧
    (st2.out ≠ st1.out → netLayer S netInvalid (.layer id' name' (.reuse l) inner) st2 = .error .mismatch) := by
  have h3 : ∃ id'', st1.reg.lookup l = some (some (.leaf id'' l .plain (some st1.out) st1.out)) := inner_created netInvalid id name kind hk own l hl st st1 o h
  obtain ⟨id'', h3⟩ := h3
  have h6 := ((netLayers_effect _ _ _ h2).1 _ hn).trans h3
  have hl' : netLayer S netInvalid (.layer id' name' (.reuse l) inner) st2 =
      match createReuse id' name' l st2.out st2.reg with
      | .error e => .error e
      | .ok r => added netInvalid (.reuse l) st2 r := by
    rw [netLayer.eq_def]; rfl
  rw [hl', createReuse, h6]
  dsimp only
  rw [if_neg hne]
  dsimp only [Obj.inp]
  constructor
  · intro he
    rw [if_pos he.symm]
    exact ⟨_, _, rfl, rfl, rfl⟩
  · intro he
    rw [if_neg fun e => he e.symm]

example : ∃ r, network chainSizes (.list [.layer 3 "a" .plain ["p", "q"], .layer 2 "r" (.reuse "p") []]) (.single 3) none [] = .ok r := ⟨_, rfl⟩

/-- C92: a layer with the name of the layer which it is to reuse is rejected. -/
theorem reuse_itself (id : Nat) (l : String) (inner : List String) (st : Build β) :
    ∃ e, netLayer S netInvalid (.layer id l (.reuse l) inner) st = .error e := by
  have hl : netLayer S netInvalid (.layer id l (.reuse l) inner) st =
      match createReuse id l l st.out st.reg with
      | .error e => .error e
      | .ok r => added netInvalid (.reuse l) st r := by
    rw [netLayer.eq_def]; rfl
  rw [hl, createReuse]
  cases st.reg.lookup l with
  | none => exact ⟨_, rfl⟩
  | some r => dsimp only; rw [if_pos rfl]; exact ⟨_, rfl⟩

/-- C92: a layer or block of a network can also be reused by the next network, under the conditions of `reuse`. -/
theorem reuse_network (a : LSpec) (ha : Reusable a) (inputs inputs' : Inputs β) (outputs outputs' : Option (List String)) (reg : Reg β) (n : Network β) (R : Reg β)
    (h : network S a inputs outputs reg = .ok (n, R)) (id : Nat) (name : String) (hne : name ≠ a.name) (inner : List String) :
    (inputs'.value = inputs.value → ∃ r, network S (.layer id name (.reuse a.name) inner) inputs' outputs' R = .ok r ∧ r.1.out = n.out) ∧
    (inputs'.value ≠ inputs.value → network S (.layer id name (.reuse a.name) inner) inputs' outputs' R = .error .mismatch) := by
  rw [network] at h
  cases hq : netLayer S netInvalid a ⟨reg, inputs.value, inputs.tensors⟩ with
  | error e => rw [hq] at h; cases h
  | ok q =>
    rw [hq] at h
    injection h with h
    obtain ⟨rfl, rfl⟩ := Prod.mk.inj h
    obtain ⟨h3, h4, h5⟩ := created netInvalid a _ q.2 q.1 hq ha
    have hl : netLayer S netInvalid (.layer id name (.reuse a.name) inner) ⟨q.2.reg, inputs'.value, inputs'.tensors⟩ =
        match createReuse id name a.name inputs'.value q.2.reg with
        | .error e => .error e
        | .ok r => added netInvalid (.reuse a.name) ⟨q.2.reg, inputs'.value, inputs'.tensors⟩ r := by
      rw [netLayer.eq_def]; rfl
    rw [network, hl, createReuse, h3]
    dsimp only
    rw [if_neg hne]
    dsimp only
    rw [h4]
    dsimp only
    constructor
    · intro he
      rw [if_pos he.symm]
      exact ⟨_, rfl, h5 _⟩
    · intro he
      rw [if_neg fun e => he e.symm]

/-- Layers which keep the size. -/
def keepSizes : SpecFns Nat := ⟨fun _ b => .ok b, fun _ bs => .ok (bs.headD 0)⟩

example : ∃ r, network keepSizes (.list [.layer 0 "a" .plain [], .layer 1 "b" .plain [], .layer 2 "r" (.reuse "a") []]) (.single 3) none [] = .ok r := ⟨_, rfl⟩

example : ∃ r, networks keepSizes [(.layer 0 "a" .plain [], .single 3), (.layer 1 "r" (.reuse "a") [], .single 3)] [] = .ok r := ⟨_, rfl⟩

/-! ### Names -/

/-- C92: layers and blocks have the names given to them, and others are called after their type and the number of such layers before; the layers of a
block count for themselves. -/
theorem names (specs : List Spec) (hs : ∀ s ∈ specs, s.isList = false) (next : Nat) (i : Nat) (s : Spec) (hi : specs[i]? = some s) :
    (∃ l, (labelAll specs next []).1[i]? = some l ∧ l.name = expectedName (specs.take i) s) ∧
    ∀ name c, ∃ n, (label (.block name specs) next c).1 = .block n (labelAll specs next []).1 :=
  ⟨labelAll_flat specs hs [] next [] (fun _ => rfl) i s hi, fun name c => ⟨_, rfl⟩⟩

example : (labelAll [.layer "dense" none .plain [], .layer "dense" (some "x") .plain [], .block none [.layer "dense" none .plain []], .layer "dense" none .plain []] 0 []).1.map
    LSpec.name = ["dense0", "x", "block0", "dense1"] := by decide +kernel

/-- C92: default names are different from each other, also in inner lists. -/
theorem names_different (specs : List Spec) (h : UnnamedAll specs) (next : Nat) : (topNamesAll (labelAll specs next []).1).Nodup :=
  (labelAll_counted specs h next []).2.1

example : UnnamedAll [.layer "dense" none .plain [], .list [.layer "dense" none .plain []], .block none []] :=
  ⟨⟨rfl, ⟨['d', 'e', 'n', 's'], 'e', by decide, by decide⟩⟩, ⟨⟨rfl, ⟨['d', 'e', 'n', 's'], 'e', by decide, by decide⟩⟩, trivial⟩, rfl, trivial⟩

/-- C92: every layer is an object of its own. -/
theorem objects (s : Spec) (next : Nat) (c : Counter) : (ids (label s next c).1).Nodup := by
  obtain ⟨n, h, -⟩ := label_ids s next c
  rw [h]
  exact List.nodup_range'

/-- C92 is violated: the names within a network are not compared, so that two layers get the same name. -/
theorem same_name_violation : ∃ r, network (β := Nat) ⟨fun _ b => .ok b, fun _ bs => .ok (bs.headD 0)⟩
    (.list [.layer 0 "a" .plain [], .layer 1 "a" .plain []]) (.single 3) none [] = .ok r := ⟨_, rfl⟩

end Verif.Props.Build
