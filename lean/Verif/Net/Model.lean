/-!
# Model of layered networks

Models `LayerbasedNetwork` and `LayeredNetwork` (`tensorforce/core/networks/network.py` 113-437), `Preprocessor` (preprocessor.py 44-163), and of
`tensorforce/core/layers/layer.py` the registry of layers (43-46, 123), `Register` (191-217), `MultiInputLayer` (105-161), `Block` (365-418) and
`Reuse` (433-460); `Module.submodule` checks names (module.py 488-489).

Simplifications: the layers themselves are given as functions, one for every layer object, on specifications (`output_spec`) and on tensors (`apply`).
A specification is a type and a shape, completely known, so that `unify` means equality. Layers are given with their class (`Kind`) and with the names
of the layers which they create for themselves (`activation`, `dropout`, layer.py 797-808); the specification keys exist, and names contain no `/`.
The internals of a temporal layer are one value. The recursion limit is a parameter. Keras layers and parameters as submodules are left out.
-/

namespace Verif.Net

inductive NError where
  | exists_         -- `TensorforceError.exists`
  | existsNot
  | value
  | invalid
  | type
  | unexpected
  | mismatch
  | attribute       -- `AttributeError`
  | key             -- `KeyError`
  | notImplemented
  | successive      -- "Multiple successive temporal layers like RNNs are currently not supported."
  | recursion
deriving DecidableEq, Repr

/-- The class of a layer, as far as networks distinguish them. -/
inductive Kind where
  | plain
  | random          -- `NondeterministicLayer`
  | stateful        -- `StatefulLayer`
  | temporal        -- `TemporalLayer`
  | prep            -- `PreprocessingLayer`
  | register (tensor : String)
  | retrieve (tensors : List String)
  | reuse (layer : String)
deriving DecidableEq, Repr

/-- The argument `layers`. -/
inductive Spec where
  | layer (type : String) (name : Option String) (kind : Kind) (inner : List String)
  | block (name : Option String) (layers : List Spec)
  | list (specs : List Spec)

/-- The same with all names, and with a number for every layer object. -/
inductive LSpec where
  | layer (id : Nat) (name : String) (kind : Kind) (inner : List String)
  | block (name : String) (layers : List LSpec)
  | list (specs : List LSpec)

/-! ### Names -/

/-- `Counter`. -/
abbrev Counter := List (String × Nat)

def Counter.get (c : Counter) (type : String) : Nat := (c.lookup type).getD 0

def Counter.add (c : Counter) (type : String) : Counter := (type, c.get type + 1) :: c

/-- network.py 341-350, layer.py 389-398. -/
def nameOf (type : String) (name : Option String) (c : Counter) : String × Counter :=
  match name with
  | some n => (n, c)
  | none => (type ++ toString (c.get type), c.add type)

mutual

/-- network.py 325-352 and layer.py 385-398; a block counts for itself. -/
def label : Spec → Nat → Counter → LSpec × Nat × Counter
  | .layer type name kind inner, next, c =>
    let r := nameOf type name c
    (.layer next r.1 kind inner, next + 1 + inner.length, r.2)
  | .block name layers, next, c =>
    let r := nameOf "block" name c
    let b := labelAll layers next []
    (.block r.1 b.1, b.2.1, r.2)
  | .list specs, next, c =>
    let l := labelAll specs next c
    (.list l.1, l.2.1, l.2.2)

def labelAll : List Spec → Nat → Counter → List LSpec × Nat × Counter
  | [], next, c => ([], next, c)
  | s :: ss, next, c =>
    let r := label s next c
    let rs := labelAll ss r.2.1 r.2.2
    (r.1 :: rs.1, rs.2.1, rs.2.2)

end

/-! ### Construction -/

/-- Layer objects, with the specifications of their input (unless it is a `MultiInputLayer`) and output; and nested lists of them. -/
inductive Obj (β : Type) where
  | leaf (id : Nat) (name : String) (kind : Kind) (inp : Option β) (out : β)
  | block (name : String) (layers : List (Obj β)) (inp out : β)
  | list (layers : List (Obj β))

variable {α β ι : Type}

/-- `Layer._REGISTERED_LAYERS`, newest first; `none` is a layer under construction. -/
abbrev Reg (β : Type) := List (String × Option (Obj β))

/-- `output_spec` of the layers. -/
structure SpecFns (β : Type) where
  out : Nat → β → Except NError β
  agg : Nat → List β → Except NError β

def Obj.inp : Obj β → Option β
  | .leaf _ _ _ inp _ => inp
  | .block _ _ inp _ => some inp
  | .list _ => none

def Obj.outIs : Obj β → β → β
  | .leaf _ _ _ _ out, _ => out
  | .block _ _ _ out, _ => out
  | .list _, b => b

/-- The values of all names, in the order of the names. -/
def lookupAll {γ : Type} (ts : List String) (l : List (String × γ)) : Option (List γ) :=
  match ts with
  | [] => some []
  | t :: ts =>
    match l.lookup t, lookupAll ts l with
    | some v, some vs => some (v :: vs)
    | _, _ => none

/-- Layers created by a layer for itself are registered after it. -/
def register (id : Nat) (out : β) : List String → Reg β → Reg β
  | [], reg => reg
  | n :: ns, reg => register (id + 1) out ns ((n, some (.leaf id n .plain (some out) out)) :: reg)

/-- layer.py 433-460, with `Layer.__init__` (43-53): the layer is registered before its specification is asked for. -/
def createReuse [DecidableEq β] (id : Nat) (name l : String) (inp : β) (reg : Reg β) : Except NError (Obj β × Reg β) :=
  match reg.lookup l with
  | none => .error .value
  | some r =>
    match (if name = l then none else r) with
    | none => .error .attribute
    | some o =>
      match o.inp with
      | none => .error .unexpected
      | some i =>
        if i = inp then
          let leaf := .leaf id name (.reuse l) (some inp) (o.outIs inp)
          .ok (leaf, (name, some leaf) :: reg)
        else .error .mismatch

/-- The constructor of a layer with input specification `inp`. -/
def create [DecidableEq β] (S : SpecFns β) (id : Nat) (name : String) (kind : Kind) (inner : List String) (inp : β) (reg : Reg β) :
    Except NError (Obj β × Reg β) :=
  match kind with
  | .reuse l => createReuse id name l inp reg
  | .register _ =>
    let leaf := .leaf id name kind (some inp) inp
    .ok (leaf, (name, some leaf) :: reg)
  | .retrieve _ => .error .invalid
  | _ =>
    match S.out id inp with
    | .error e => .error e
    | .ok out =>
      let leaf := .leaf id name kind (some inp) out
      .ok (leaf, register (id + 1) out inner ((name, some leaf) :: reg))

/-- The constructor of `Retrieve` with the registered tensors: network.py 219-231, layer.py 120-155. -/
def createRetrieve (S : SpecFns β) (id : Nat) (name : String) (ts : List String) (tensors : List (String × β)) (reg : Reg β) :
    Except NError (Obj β × Reg β) :=
  match lookupAll ts tensors with
  | none => .error .existsNot
  | some bs =>
    if ts = [] ∨ ¬ ts.Nodup then .error .value
    else match S.agg id bs with
      | .error e => .error e
      | .ok out =>
        let leaf := .leaf id name (.retrieve ts) none out
        .ok (leaf, (name, some leaf) :: reg)

/-- The block with this name is complete. -/
def fill (name : String) (o : Obj β) : Reg β → Reg β
  | [] => []
  | (n, some p) :: reg => (n, some p) :: fill name o reg
  | (n, none) :: reg => if n = name then (n, some o) :: reg else (n, none) :: fill name o reg

mutual

/-- layer.py 365-415, with `names` as the names of the layers before this one in the block. -/
def blockLayer [DecidableEq β] (S : SpecFns β) : LSpec → List String → β → Reg β → Except NError (Obj β × String × Reg β)
  | .list _, _, _, _ => .error .attribute
  | .layer id name kind inner, names, inp, reg =>
    match kind with
    | .register _ => .error .invalid
    | .retrieve _ => .error .invalid
    | _ =>
      if name ∈ names then .error .exists_
      else match create S id name kind inner inp reg with
        | .error e => .error e
        | .ok r => .ok (r.1, name, r.2)
  | .block name layers, names, inp, reg =>
    if name ∈ names then .error .exists_
    else if layers.isEmpty then .error .value
    else match blockLayers S layers [] inp ((name, none) :: reg) with
      | .error e => .error e
      | .ok r =>
        let b := .block name r.1 inp r.2.1
        .ok (b, name, fill name b r.2.2)

/-- layer.py 387-412; returns the layers, the specification of the last one and the registry. -/
def blockLayers [DecidableEq β] (S : SpecFns β) : List LSpec → List String → β → Reg β → Except NError (List (Obj β) × β × Reg β)
  | [], _, inp, reg => .ok ([], inp, reg)
  | l :: ls, names, inp, reg =>
    match blockLayer S l names inp reg with
    | .error e => .error e
    | .ok r =>
      match blockLayers S ls (r.2.1 :: names) (r.1.outIs inp) r.2.2 with
      | .error e => .error e
      | .ok rs => .ok (r.1 :: rs.1, rs.2)

end

/-- A network under construction: the registry, `_output_spec` and `registered_tensors_spec`. -/
structure Build (β : Type) where
  reg : Reg β
  out : β
  tensors : List (String × β)

/-- network.py 255-268. -/
def added (invalid : Kind → Bool) (kind : Kind) (st : Build β) (r : Obj β × Reg β) : Except NError (Obj β × Build β) :=
  if invalid kind then .error .type
  else
    let out := r.1.outIs st.out
    match kind with
    | .register t => if (st.tensors.lookup t).isSome then .error .exists_ else .ok (r.1, ⟨r.2, out, (t, out) :: st.tensors⟩)
    | _ => .ok (r.1, ⟨r.2, out, st.tensors⟩)

mutual

/-- network.py 200-270, 325-352. Names are not compared with those of other layers: `self.layers` is not set before all layers are there. -/
def netLayer [DecidableEq β] (S : SpecFns β) (invalid : Kind → Bool) : LSpec → Build β → Except NError (Obj β × Build β)
  | .layer id name kind inner, st =>
    match kind with
    | .retrieve ts =>
      match createRetrieve S id name ts st.tensors st.reg with
      | .error e => .error e
      | .ok r => added invalid kind st r
    | _ =>
      match create S id name kind inner st.out st.reg with
      | .error e => .error e
      | .ok r => added invalid kind st r
  | .block name layers, st =>
    match blockLayer S (.block name layers) [] st.out st.reg with
    | .error e => .error e
    | .ok r => .ok (r.1, ⟨r.2.2, r.1.outIs st.out, st.tensors⟩)
  | .list specs, st =>
    match netLayers S invalid specs st with
    | .error e => .error e
    | .ok r => .ok (.list r.1, r.2)

def netLayers [DecidableEq β] (S : SpecFns β) (invalid : Kind → Bool) : List LSpec → Build β → Except NError (List (Obj β) × Build β)
  | [], st => .ok ([], st)
  | l :: ls, st =>
    match netLayer S invalid l st with
    | .error e => .error e
    | .ok r =>
      match netLayers S invalid ls r.2 with
      | .error e => .error e
      | .ok rs => .ok (r.1 :: rs.1, rs.2)

end

/-- The inputs of a network: one without name, or several with names. -/
inductive Inputs (γ : Type) where
  | single (v : γ)
  | named (name : String) (v : γ) (rest : List (String × γ))

/-- network.py 123-126, 356-359. -/
def Inputs.tensors {γ : Type} : Inputs γ → List (String × γ)
  | .single v => [("state", v)]
  | .named n v rest => (n, v) :: rest

/-- `value()`, nested_dict.py 315-316: the first one. -/
def Inputs.value {γ : Type} : Inputs γ → γ
  | .single v => v
  | .named _ v _ => v

structure Network (β : Type) where
  layers : Obj β
  out : β
  tensors : List (String × β)
  outputs : Option (List String)

/-- `invalid_layer_types`, network.py 130-131. -/
def netInvalid (k : Kind) : Bool := k = .prep

/-- `LayeredNetwork.__init__` (network.py 295-305, 118-128) with the registry of the layers created before; returns the registry after. The argument
`outputs` is not given on to `Network.__init__` (119-121), where it is none by default. -/
def network [DecidableEq β] (S : SpecFns β) (layers : LSpec) (inputs : Inputs β) (_outputs : Option (List String)) (reg : Reg β) :
    Except NError (Network β × Reg β) :=
  match netLayer S netInvalid layers ⟨reg, inputs.value, inputs.tensors⟩ with
  | .error e => .error e
  | .ok r => .ok (⟨r.1, r.2.out, r.2.tensors, none⟩, r.2.reg)

/-- Several networks created one after the other, like those of the policy and the baseline; the registry is that of the whole model
(tensorforce/core/models/model.py 39, 221). -/
def networks [DecidableEq β] (S : SpecFns β) : List (LSpec × Inputs β) → Reg β → Except NError (List (Network β) × Reg β)
  | [], reg => .ok ([], reg)
  | p :: ps, reg =>
    match network S p.1 p.2 none reg with
    | .error e => .error e
    | .ok r =>
      match networks S ps r.2 with
      | .error e => .error e
      | .ok rs => .ok (r.1 :: rs.1, rs.2)

/-- network.py 133-142: the tensors announced besides the embedding. -/
def Network.announced (n : Network β) : List (String × β) :=
  match n.outputs with
  | none => []
  | some os => os.filterMap fun o => (n.tensors.lookup o).map fun b => (o, b)

/-! ### Application -/

/-- `apply` of the layers. -/
structure Fns (α ι : Type) where
  plain : Nat → α → α
  random : Nat → Bool → α → α
  stateful : Nat → Bool → α → α
  temporal : Nat → α → ι → α × ι
  retrieve : Nat → List α → α

/-- The tensor `x`, the registered tensors, the internals and `temporal_layer_check`. -/
structure Run (α ι : Type) where
  x : α
  tensors : List (String × α)
  internals : List (String × ι)
  check : Bool

/-- The arguments `deterministic` and `independent`. -/
structure Mode where
  deterministic : Bool
  independent : Bool

/-- `internals[name] = i`. -/
def assign {γ : Type} (name : String) (i : γ) : List (String × γ) → List (String × γ)
  | [] => [(name, i)]
  | (n, j) :: l => if n = name then (n, i) :: l else (n, j) :: assign name i l

/-- network.py 406-435. -/
def applyLeaf (F : Fns α ι) (m : Mode) (id : Nat) (name : String) (kind : Kind) (s : Run α ι) : Except NError (Run α ι) :=
  match kind with
  | .register t => if (s.tensors.lookup t).isSome then .error .exists_ else .ok { s with tensors := (t, s.x) :: s.tensors }
  | .retrieve ts =>
    match lookupAll ts s.tensors with
    | none => .error .existsNot
    | some vs => .ok { s with x := F.retrieve id vs, check := false }
  | .random => .ok { s with x := F.random id m.deterministic s.x }
  | .stateful => .ok { s with x := F.stateful id m.independent s.x }
  | .temporal =>
    if s.check then .error .successive
    else match s.internals.lookup name with
      | none => .error .key
      | some i =>
        let r := F.temporal id s.x i
        .ok { s with x := r.1, internals := assign name r.2 s.internals, check := true }
  | .plain | .prep => .ok { s with x := F.plain id s.x }
  | .reuse _ => .error .notImplemented

/-- One after the other. -/
def chain {σ γ : Type} (f : γ → σ → Except NError σ) : List γ → σ → Except NError σ
  | [], s => .ok s
  | o :: os, s =>
    match f o s with
    | .error e => .error e
    | .ok s => chain f os s

/-- `_recursive_apply`, network.py 376-437, with the registry of layers at the time of the call. -/
def run (F : Fns α ι) (m : Mode) (reg : Reg β) : Nat → Obj β → Run α ι → Except NError (Run α ι)
  | 0, _, _ => .error .recursion
  | n + 1, .list os, s => chain (run F m reg n) os s
  | n + 1, .block _ os _ _, s => chain (run F m reg n) os s
  | n + 1, .leaf id name kind _ _, s =>
    match kind with
    | .reuse l =>
      match reg.lookup l with
      | some (some o) => run F m reg n o s
      | _ => .error .key
    | _ => applyLeaf F m id name kind s

/-- The state at the beginning of `apply`, network.py 356-362. -/
def begin (inputs : Inputs α) (internals : List (String × ι)) : Run α ι := ⟨inputs.value, inputs.tensors, internals, false⟩

/-- network.py 369-371. -/
def chosen (outputs : Option (List String)) (tensors : List (String × α)) : Except NError (List (String × α)) :=
  match outputs with
  | none => .ok []
  | some os =>
    match lookupAll os tensors with
    | none => .error .key
    | some vs => .ok (os.zip vs)

/-- `apply`, network.py 354-373: the embedding, the tensors besides the embedding, and the internals. -/
def Network.apply (F : Fns α ι) (m : Mode) (limit : Nat) (reg : Reg β) (n : Network β) (inputs : Inputs α) (internals : List (String × ι)) :
    Except NError (α × List (String × α) × List (String × ι)) :=
  match run F m reg limit n.layers (begin inputs internals) with
  | .error e => .error e
  | .ok s =>
    match chosen n.outputs s.tensors with
    | .error e => .error e
    | .ok ts => .ok (s.x, ts, s.internals)

/-- The tensor for the distribution of an action (tensorforce/core/policies/parametrized_distributions.py 190-199, 207-211). -/
def actionInput (embedding : α) (tensors : List (String × α)) (action : String) : α := (tensors.lookup (action ++ "-embedding")).getD embedding

/-- The argument `outputs` of the network of a policy (parametrized_distributions.py 72-83). -/
def policyOutputs (singleOutput : Bool) (actions : List String) : Option (List String) :=
  if singleOutput then none else some (actions.map (· ++ "-embedding"))

/-- The results one after the other. -/
def collect {γ δ : Type} (f : γ → Except NError (List δ)) : List γ → Except NError (List δ)
  | [] => .ok []
  | o :: os =>
    match f o, collect f os with
    | .ok l, .ok ls => .ok (l ++ ls)
    | .error e, _ => .error e
    | _, .error e => .error e

/-- `_recursive_temporal_layers`, network.py 144-152: the temporal layers on which `fn` is called. -/
def temporals (reg : Reg β) : Nat → Obj β → Except NError (List (Nat × String))
  | 0, _ => .error .recursion
  | n + 1, .list os => collect (temporals reg n) os
  | n + 1, .block _ os _ _ => collect (temporals reg n) os
  | n + 1, .leaf id name kind _ _ =>
    match kind with
    | .temporal => .ok [(id, name)]
    | .reuse l =>
      match reg.lookup l with
      | some (some o) => temporals reg n o
      | _ => .error .key
    | _ => .ok []

/-- `internals_spec`, network.py 154-164: a name which is already set is an error (nested_dict.py 301-304). -/
def Network.internalsSpec (limit : Nat) (reg : Reg β) (n : Network β) : Except NError (List (Nat × String)) :=
  match temporals reg limit n.layers with
  | .error e => .error e
  | .ok ts => if (ts.map Prod.snd).Nodup then .ok ts else .error .value

/-- `max_past_horizon` with `on_policy=False`, network.py 177-186, layer.py 538-542. -/
def Network.maxPastHorizon (horizon : Nat → Nat) (limit : Nat) (reg : Reg β) (n : Network β) : Except NError Nat :=
  match temporals reg limit n.layers with
  | .error e => .error e
  | .ok ts => .ok (ts.foldr (fun t m => max (horizon t.1) m) 0)

/-! ### Preprocessing -/

/-- `invalid_layer_types`, preprocessor.py 60-64. -/
def prepInvalid (allowed : Bool) (k : Kind) : Bool := k = .temporal || (!allowed && k = .prep)

/-- `Preprocessor.__init__`, preprocessor.py 44-58. -/
def preprocessor [DecidableEq β] (S : SpecFns β) (allowed : Bool) (layers : LSpec) (input : β) (reg : Reg β) : Except NError (Network β × Reg β) :=
  match netLayer S (prepInvalid allowed) layers ⟨reg, (Inputs.single input).value, (Inputs.single input).tensors⟩ with
  | .error e => .error e
  | .ok r => .ok (⟨r.1, r.2.out, r.2.tensors, none⟩, r.2.reg)

mutual

/-- `_recursive_apply`, preprocessor.py 134-163; `apply` of a block or a reused layer is not implemented. -/
def runPrep (F : Fns α ι) (m : Mode) : Obj β → Run α ι → Except NError (Run α ι)
  | .list os, s => runPreps F m os s
  | .block _ _ _ _, _ => .error .notImplemented
  | .leaf id name kind _ _, s =>
    match kind with
    | .temporal => .error .type
    | _ => applyLeaf F m id name kind s

def runPreps (F : Fns α ι) (m : Mode) : List (Obj β) → Run α ι → Except NError (Run α ι)
  | [], s => .ok s
  | o :: os, s =>
    match runPrep F m o s with
    | .error e => .error e
    | .ok s => runPreps F m os s

end

/-- `apply`, preprocessor.py 121-132; the input is registered as `input`. -/
def Network.preprocess (F : Fns α ι) (m : Mode) (n : Network β) (x : α) : Except NError α :=
  match runPrep F m n.layers ⟨x, [("input", x)], [], false⟩ with
  | .error e => .error e
  | .ok s => .ok s.x

mutual

/-- `_recursive_reset`, preprocessor.py 112-119: the layers which are reset. -/
def resets : Obj β → List Nat
  | .list os => resetsAll os
  | .block _ _ _ _ => []
  | .leaf id _ kind _ _ => if kind = .prep then [id] else []

def resetsAll : List (Obj β) → List Nat
  | [] => []
  | o :: os => resets o ++ resetsAll os

end

end Verif.Net
