import Verif.Gym.Total
import Verif.Gym.Bounds
import Verif.Gym.MaskFree
import Verif.Gym.Deep
import Verif.Gym.Mask
import Verif.Gym.Observe

/-!
# Properties C73–C76: observations and actions of Gym environments

C73, the specification names every component of a space:
* `components_partial`, `exists_partial`, `typed`, `bounds_partial`, `allowed_partial`: it does for spaces in which no name of a dictionary contains an underscore or
  is `type`; such names may collide (`collision_violation`, `type_violation`), and finite bounds beyond one million are lost
  (`bound_violation`) or rejected (`reject_violation`).

C74, actions:
* `action_partial`, `reached_partial`: the conversion of the actions of an agent for the supported spaces. For others it fails or gives
  something which is not in the space (`many_violation`, `nested_violation`, `underscore_violation`, `tuple_violation`,
  `range_violation`).

C75, observations:
* `observation_partial`: for spaces of one component and tuples and dictionaries of these; `nested_fails`: for no others.
* `masks_partial`, `unannounced_partial`: action masks arrive unchanged. `finite`: infinite numbers are rejected.

C76, clipping and dropping:
* `clipped_partial`, `dropped_partial`; violated for spaces other than boxes (`discrete_violation`, `dict_violation`), for array bounds with
  dropped values (`bounds_violation`) and for invalid indices (`index_violation`).
-/

namespace Verif.Props.Gym

open Verif.Gym

/-! ## Examples -/

def nm (s : String) : Name := s.toList
def num (r : Rat) : Value := .array ⟨[], [.fin r]⟩

/-- A dictionary with a number, a box and different numbers. -/
def mixed : Space :=
  .dict [(nm "a", .discrete 3), (nm "b", .box [2] [.fin 0, .fin (-1)] [.fin 1, .fin 1]), (nm "c", .multiDiscrete [2] [2, 5])]
/-- An element of it. -/
def mixedValue : Value :=
  .dict [(nm "a", num 2), (nm "b", .array ⟨[2], [.fin 1, .fin 0]⟩), (nm "c", .array ⟨[2], [.fin 1, .fin 4]⟩)]

/-- A tuple of a number and a box with infinite bounds. -/
def pair : Space := .tuple [.discrete 3, .box [2] [.negInf, .fin 0] [.posInf, .posInf]]
def pairValue : Value := .tuple [num 1, .array ⟨[2], [.fin (-7), .fin 3]⟩]

/-! ## C73 -/

/-- **C73.** The entries of the specification are those of the components of the space, in order, named by the way to them, and no two
have the same name. Missing: dictionaries with underscores in names or the name `type`. -/
theorem components_partial (inf : Bool) {s : Space} (hw : s.wf = true) (hg : s.goodNames = true) {sp : Spec}
    (h : specs inf none none s = .ok sp) : PartsOf inf s sp ∧ sp.names.Nodup :=
  ⟨specs_parts inf s sp hw hg h, (specs_okNames inf s none none sp hw hg h).1⟩

/-- **C73.** There always is a specification of the observations, and of the actions unless a box has different bounds on one side of which one
is beyond the limits. -/
theorem exists_partial (inf : Bool) {s : Space} (hw : s.wf = true) (hg : s.goodNames = true) :
    if inf = false ∧ s.rejected = true then specs inf none none s = .error .infinite else ∃ sp, specs inf none none s = .ok sp := by
  cases inf with
  | true =>
    rw [if_neg (by simp)]
    exact (specs_total true s hw hg).resolve_right (by simp)
  | false => simpa using specs_rejected s hw hg

/-- **C73.** The type, shape and number of values of components other than boxes. -/
theorem typed (inf : Bool) : (∀ n, specs inf none none (.discrete n) = .ok (.leaf { kind := .int, shape := [], numValues := some n })) ∧
    (∀ n, specs inf none none (.multiBinary n) = .ok (.leaf { kind := .bool, shape := [n] })) ∧
    ∀ shape n nvec, uniform (n :: nvec) = true →
      specs inf none none (.multiDiscrete shape (n :: nvec)) = .ok (.leaf { kind := .int, shape := shape, numValues := some n }) :=
  ⟨fun _ => rfl, fun _ => rfl, fun _ _ _ h => specs_mdc_uniform h⟩

/-- **C73.** The type, shape and bounds of boxes: bounds within the limits are kept, others are left out. -/
theorem bounds_partial (inf : Bool) {shape : List Nat} {low high : List Num} (hw : (Space.box shape low high).wf = true) {l : Leaf}
    (h : specs inf none none (.box shape low high) = .ok (.leaf l)) :
    l.kind = .float ∧ l.shape = shape ∧
      (∀ (i : Nat) x, low[i]? = some x → if lowLimit.lt x then l.low.bound i = some x else l.low.bound i = none ∨ l.low.bound i = some .negInf) ∧
      ∀ (i : Nat) x, high[i]? = some x → if x.lt highLimit then l.high.bound i = some x else l.high.bound i = none ∨ l.high.bound i = some .posInf :=
  box_bounds hw h

example : Space.rejected (.box [2] [.negInf, .fin 0] [.fin 1, .fin 1]) = true := by decide
example : (specs true none none (.box [2] [.negInf, .fin 0] [.fin 1, .fin 1])).toOption =
    some (.leaf { kind := .float, shape := [2], low := .array [.negInf, .fin 0], high := .scalar (.fin 1) }) := by decide

/-- **C73.** The specification allows the components of every element of the space. -/
theorem allowed_partial (inf : Bool) {s : Space} (hw : s.wf = true) (hg : s.goodNames = true) {sp : Spec}
    (h : specs inf none none s = .ok sp) {v : Value} (hv : s.mem v = true) : sp.fits (named s v) = true :=
  named_fits inf s sp v hw hg h hv

example : mixed.wf = true ∧ mixed.goodNames = true ∧ mixed.mem mixedValue = true ∧
    (specs false none none mixed).toOption.map Spec.names = some [nm "a", nm "b", nm "c_gymmdc0_2", nm "c_gymmdc1_2"] := by decide
example : (specs false none none (.box [2] [.negInf, .fin 0] [.fin 1, .fin 1])).toOption = none := by decide

/-- Two components with the same name: one of them is lost. -/
theorem collision_violation :
    let s : Space := .dict [(nm "a_b", .discrete 2), (nm "a", .dict [(nm "b", .discrete 3)])]
    s.wf = true ∧ s.parts.length = 2 ∧
      specs true none none s = .ok (.dict [(nm "a_b", { kind := .int, shape := [], numValues := some 3 })]) :=
  ⟨by decide, by decide, rfl⟩

/-- A nested component with the name `type` makes the adapter take the dictionary for a component. -/
theorem type_violation : let s : Space := .dict [(nm "a", .dict [(nm "type", .discrete 2)])]
    s.wf = true ∧ specs true none none s = .error .type := ⟨by decide, rfl⟩

/-- Finite bounds beyond one million are not in the specification. -/
theorem bound_violation : let s : Space := .box [1] [.fin (-2000000)] [.fin 2000000]
    s.wf = true ∧ specs false none none s = .ok (.leaf { kind := .float, shape := [1] }) := ⟨by decide, rfl⟩

/-- A finite bound beyond one million beside another bound is rejected as infinite. -/
theorem reject_violation : let s : Space := .box [2] [.fin (-2000000), .fin 0] [.fin 1, .fin 1]
    s.wf = true ∧ specs false none none s = .error .infinite := ⟨by decide, rfl⟩

/-! ## C74 -/

/-- **C74.** Every action which the specification allows is converted to the element of the space which has these components. Missing: the
spaces which are not supported. -/
theorem action_partial {s : Space} (hw : s.wf = true) (hs : s.supported = true) : ∃ sp, specs false none none s = .ok sp ∧
    ∀ a, sp.fits a = true → ∃ v, unflatten a = .ok v ∧ s.mem v = true ∧ named s v = a := by
  obtain ⟨sp, h1, -, h3⟩ := (works s hw hs).1
  exact ⟨sp, h1, fun a ha => works_unflatten h3 ha⟩

/-- **C74.** Every element of the space is the conversion of its components. Missing: as before. -/
theorem reached_partial {s : Space} (hw : s.wf = true) (hs : s.supported = true) : ∃ sp, specs false none none s = .ok sp ∧
    ∀ v, s.mem v = true → sp.fits (named s v) = true ∧ unflatten (named s v) = .ok v := by
  obtain ⟨sp, h1, -, h3⟩ := (works s hw hs).1
  obtain ⟨c1, c2⟩ := covered s sp hw hs h1
  refine ⟨sp, h1, fun v hv => ⟨c1 v hv, ?_⟩⟩
  obtain ⟨w, g1, g2, g3⟩ := works_unflatten h3 (c1 v hv)
  rw [g1, c2 w v g2 hv g3]

example : mixed.wf = true ∧ mixed.supported = true ∧ mixed.mem mixedValue = true := by decide
example : unflatten (named mixed mixedValue) = .ok mixedValue :=
  have ⟨_, _, h⟩ := reached_partial (s := mixed) (by decide) (by decide)
  (h mixedValue (by decide)).2

/-- More than ten different numbers. -/
theorem many_violation :
    let s : Space := .multiDiscrete [11] [2, 3, 2, 2, 2, 2, 2, 2, 2, 2, 2]
    let a : Flat := named s (.array ⟨[11], List.replicate 11 (.fin 0)⟩)
    s.wf = true ∧ (∃ sp, specs false none none s = .ok sp ∧ sp.fits a = true) ∧ unflatten a = .error .assertion :=
  ⟨by decide, ⟨_, rfl, by decide⟩, rfl⟩

/-- A tuple in a tuple. -/
theorem nested_violation :
    let s : Space := .tuple [.tuple [.discrete 2, .discrete 2]]
    let a : Flat := named s (.tuple [.tuple [num 0, num 1]])
    s.wf = true ∧ (∃ sp, specs false none none s = .ok sp ∧ sp.fits a = true) ∧ unflatten a = .error .assertion :=
  ⟨by decide, ⟨_, rfl, by decide⟩, rfl⟩

/-- A name with an underscore becomes a dictionary. -/
theorem underscore_violation :
    let s : Space := .dict [(nm "a_b", .discrete 2)]
    let a : Flat := named s (.dict [(nm "a_b", num 1)])
    s.wf = true ∧ (∃ sp, specs false none none s = .ok sp ∧ sp.fits a = true) ∧
      unflatten a = .ok (.dict [(nm "a", .dict [(nm "b", num 1)])]) ∧ s.mem (.dict [(nm "a", .dict [(nm "b", num 1)])]) = false :=
  ⟨by decide, ⟨_, rfl, by decide⟩, rfl, by decide⟩

/-- A dictionary in a tuple becomes an array. -/
theorem tuple_violation :
    let s : Space := .tuple [.dict [(nm "a", .discrete 2)]]
    let a : Flat := named s (.tuple [.dict [(nm "a", num 1)]])
    s.wf = true ∧ (∃ sp, specs false none none s = .ok sp ∧ sp.fits a = true) ∧
      unflatten a = .ok (.tuple [num 1]) ∧ s.mem (.tuple [num 1]) = false :=
  ⟨by decide, ⟨_, rfl, by decide⟩, rfl, by decide⟩

/-- The agent may choose an action outside of a box with bounds beyond one million. -/
theorem range_violation :
    let s : Space := .box [1] [.fin 0] [.fin 2000000]
    let a : Flat := .one ⟨[1], [.fin 3000000]⟩
    s.wf = true ∧ (∃ sp, specs false none none s = .ok sp ∧ sp.fits a = true) ∧
      unflatten a = .ok (.array ⟨[1], [.fin 3000000]⟩) ∧ s.mem (.array ⟨[1], [.fin 3000000]⟩) = false :=
  ⟨by decide, ⟨_, rfl, by decide⟩, rfl, by decide⟩

/-! ## C75 -/

/-- **C75.** The agent gets the components of every observation, and they fit the specification. Missing: nested tuples and dictionaries, and
`MultiDiscrete` spaces with different numbers, for which the adapter does not work (`nested_fails`); masks of the actions
(`masks_partial`). -/
theorem observation_partial {s : Space} (hw : s.wf = true) (hs : s.shallow = true) (actions : Option Spec)
    (hk : ∀ n ∈ maskNames actions, n ∉ s.keys) : ∃ sp, specs true none none s = .ok sp ∧
      ∀ v, s.mem v = true → flattenState sp actions v = .ok (named s v) ∧ sp.fits (named s v) = true :=
  state_ok hw hs actions hk

/-- **C75.** For other spaces there is no observation for which the adapter works. -/
theorem nested_fails {s : Space} (hw : s.wf = true) (hg : s.goodNames = true) (hs : s.shallow = false) (actions : Option Spec)
    (hk : ∀ n ∈ maskNames actions, n ∉ s.keys) {sp : Spec} (hsp : specs true none none s = .ok sp) {v : Value} (hv : s.mem v = true)
    {f : Flat} (hf : flattenState sp actions v = .ok f) : sp.fits f = false :=
  deep_fails hw hg hs actions hk hsp hv hf

/-- **C75.** Masks of the actions, like other components of a dictionary, arrive unchanged under their names. -/
theorem masks_partial {ss : List (Name × Space)} (hw : (Space.dict ss).wf = true) (hs : (Space.dict ss).shallow = true)
    (actions : Option Spec) : ∃ sp, specs true none none (.dict ss) = .ok sp ∧
      ∀ vs, memDict ss vs = true → ∃ out, flattenState sp actions (.dict vs) = .ok (.many out) ∧ ∀ n, look n out = look n (namedDict ss vs) := by
  obtain ⟨sp, h, -⟩ := state_ok hw hs none (by simp [maskNames])
  exact ⟨sp, h, fun vs hv => masks_ok hw (by simpa [Space.shallow] using hs) actions h hv⟩

/-- **C75.** Masks need not be part of the observation space, and may occur anywhere in the dictionary: all of its entries arrive unchanged under
their names. -/
theorem unannounced_partial {ss : List (Name × Space)} (hw : (Space.dict ss).wf = true) (hs : (Space.dict ss).shallow = true)
    (actions : Spec) : ∃ sp, specs true none none (.dict ss) = .ok sp ∧ ∀ us : List (Name × Value),
      (∀ x ∈ us, IsMask actions x.1 → ∃ a, x.2 = .array a) → memDict ss (us.filter fun x => decide (¬ IsMask actions x.1)) = true →
      ∃ out, observe {} sp actions (.dict us) = .ok (.many out) ∧ ∀ n, (look n out).map .array = look n us := by
  obtain ⟨sp, h, -⟩ := state_ok hw hs none (by simp [maskNames])
  exact ⟨sp, h, fun us hm hv => masks_free hw (by simpa [Space.shallow] using hs) actions h hm hv⟩

example : let actions : Spec := .dict [(nm "a", { kind := .int, shape := [], numValues := some 2 })]
    let us := [(nm "a_mask", .array ⟨[2], [.posInf, .fin 1]⟩), (nm "x", num 1)]
    (∀ x ∈ us, IsMask actions x.1 → ∃ a, x.2 = .array a) ∧
      memDict [(nm "x", .discrete 2)] (us.filter fun x => decide (¬ IsMask actions x.1)) = true :=
  ⟨by intro x hx _; simp only [List.mem_cons, List.not_mem_nil, or_false] at hx; rcases hx with rfl | rfl <;> exact ⟨_, rfl⟩, by decide⟩

/-- **C75.** Observations which are converted have no infinite numbers, except in masks. -/
theorem finite {spec : Spec} {actions : Option Spec} {v : Value} {f : Flat} (hk : ∀ n ∈ maskNames actions, n ∉ v.keys)
    (h : flattenState spec actions v = .ok f) : v.finite = true := flatten_finite v spec actions f hk h

example : pair.wf = true ∧ pair.shallow = true ∧ pair.mem pairValue = true := by decide
example : mixed.shallow = false := by decide
example : (flattenState (.leaf { kind := .float, shape := [1] }) none (.array ⟨[1], [.posInf]⟩)).toOption = none := by decide

/-- A mask beside an observation. -/
example : flattenState (.dict [(nm "x", { kind := .int, shape := [], numValues := some 2 }), (nm "action_mask", { kind := .bool, shape := [2] })])
    (some (.leaf { kind := .int, shape := [], numValues := some 2 }))
    (.dict [(nm "x", num 1), (nm "action_mask", .array ⟨[2], [.fin 0, .fin 1]⟩)]) =
      .ok (.many [(nm "action_mask", ⟨[2], [.fin 0, .fin 1]⟩), (nm "x", ⟨[], [.fin 1]⟩)]) := rfl

/-- An observation of different numbers is given with names which are not in the specification. -/
theorem numbers_violation :
    let s : Space := .multiDiscrete [2, 1] [2, 5]
    ∃ sp f, s.wf = true ∧ specs true none none s = .ok sp ∧ flattenState sp none (.array ⟨[2, 1], [.fin 1, .fin 4]⟩) = .ok f ∧
      sp.fits f = false := ⟨_, _, by decide, rfl, rfl, by decide⟩

/-- A tuple in a dictionary. -/
theorem nested_observation_violation :
    let s : Space := .dict [(nm "a", .tuple [.discrete 2, .discrete 2])]
    ∃ sp, s.wf = true ∧ specs true none none s = .ok sp ∧
      flattenState sp none (.dict [(nm "a", .tuple [num 0, num 1])]) = .error .assertion := ⟨_, by decide, rfl, rfl⟩

/-- Different numbers in a dictionary: several components start with the name. -/
theorem several_violation :
    let s : Space := .dict [(nm "a", .multiDiscrete [2] [2, 3])]
    ∃ sp, s.wf = true ∧ specs true none none s = .ok sp ∧
      flattenState sp none (.dict [(nm "a", .array ⟨[2], [.fin 0, .fin 1]⟩)]) = .error .assertion := ⟨_, by decide, rfl, rfl⟩

/-! ## C76 -/

/-- **C76.** Clipping requires both bounds. -/
theorem both_required (m : Rat) (indices : Option (List Nat)) (s : Space) :
    statesSpec { minValue := some m, drop := indices } s = .error .required ∧
      statesSpec { maxValue := some m, drop := indices } s = .error .required := ⟨rfl, rfl⟩

/-- **C76.** With clipping every number of an observation is moved to the nearest one between the bounds: those of the box if they are
within the limits, the given ones otherwise. The result fits the specification. Missing: spaces other than boxes, and arguments which are
not between the bounds of the box. -/
theorem clipped_partial {m M : Rat} {shape : List Nat} {low high : List Num} (hw : (Space.box shape low high).wf = true)
    (hb : ∀ (i : Nat) lo hi, low[i]? = some lo → high[i]? = some hi → (lowBound m lo).le (highBound M hi) = true) (actions : Spec) :
    ∃ l, statesSpec { minValue := some m, maxValue := some M } (.box shape low high) = .ok (.leaf l) ∧ l.shape = shape ∧
      ∀ a : Arr, a.shape = shape → a.elems.length = size shape → a.elems.all Num.isFin = true →
        ∃ b : Arr, observe { minValue := some m, maxValue := some M } (.leaf l) actions (.array a) = .ok (.one b) ∧ l.fits b = true ∧
          ∀ (i : Nat) x lo hi, a.elems[i]? = some x → low[i]? = some lo → high[i]? = some hi →
            ∃ y, b.elems[i]? = some y ∧ Clamped (lowBound m lo) (highBound M hi) x y := by
  obtain ⟨l, h1, -, h3, h4⟩ := clip_ok (by simpa only [Space.wf] using hw) hb
  refine ⟨l, by simp only [statesSpec, specs, h1], h3, fun a g1 g2 g3 => ?_⟩
  obtain ⟨b, k1, k2, k3⟩ := h4 a g1 g2 g3
  refine ⟨b, ?_, k2, k3⟩
  rw [observe, flattenState, flattenArr_leaf l g3]
  dsimp only
  have hc : clipped { minValue := some m, maxValue := some M } (.leaf l) (.one a) = .ok (.one b) := k1
  rw [hc]

/-- **C76.** Dropping removes exactly the numbers with the given indices, the specification has the remaining size, and allows the result if
the bounds are the same for all numbers. Missing: other bounds, repeated indices and indices out of range. -/
theorem dropped_partial {opts : Options} {indices : List Nat} (hd : opts.drop = some indices) {space : Space} {l : Leaf} {n : Nat}
    (hs : statesSpec opts.undropped space = .ok (.leaf l)) (hl : l.shape = [n]) (hn : indices.Nodup) (hi : ∀ i ∈ indices, i < n)
    {actions : Spec} {a b : Arr} (hv : observe opts.undropped (.leaf l) actions (.array a) = .ok (.one b)) (hf : l.fits b = true) :
    statesSpec opts space = .ok (.leaf { l with shape := [n - indices.length] }) ∧
    observe opts (.leaf { l with shape := [n - indices.length] }) actions (.array a) =
      .ok (.one ⟨[n - indices.length], without indices 0 b.elems⟩) ∧
    (without indices 0 b.elems).length = n - indices.length ∧
    (l.low.same = true → l.high.same = true →
      Leaf.fits { l with shape := [n - indices.length] } ⟨[n - indices.length], without indices 0 b.elems⟩ = true) :=
  drop_ok hd hs hl hn hi hv hf

/-- Clipping, and dropping of the first and the last number. -/
example :
    let s : Space := .box [4] [.negInf, .negInf, .negInf, .negInf] [.fin 3, .fin 3, .fin 3, .fin 3]
    let opts : Options := { minValue := some (-1), maxValue := some 1, drop := some [3, 0] }
    ∃ sp, s.wf = true ∧ statesSpec opts s = .ok sp ∧
      observe opts sp (.leaf { kind := .bool, shape := [] }) (.array ⟨[4], [.fin 5, .fin (-7), .fin 2, .fin 0]⟩) =
        .ok (.one ⟨[2], [.fin (-1), .fin 2]⟩) ∧ sp.fits (.one ⟨[2], [.fin (-1), .fin 2]⟩) = true :=
  ⟨_, by decide, rfl, rfl, by decide⟩

def clipOpts : Options := { minValue := some (-1), maxValue := some 1 }

/-- A clipped observation which is a number raises. -/
theorem discrete_violation : let s : Space := .discrete 2
    ∃ sp, s.wf = true ∧ statesSpec clipOpts s = .ok sp ∧ s.mem (num 1) = true ∧
      observe clipOpts sp (.leaf { kind := .bool, shape := [] }) (num 1) = .error .key := ⟨_, by decide, rfl, by decide, rfl⟩

/-- A clipped observation which is a dictionary raises, although its box is unbounded. -/
theorem dict_violation : let s : Space := .dict [(nm "a", .box [1] [.negInf] [.posInf])]
    ∃ sp, s.wf = true ∧ statesSpec clipOpts s = .ok sp ∧
      observe clipOpts sp (.leaf { kind := .bool, shape := [] }) (.dict [(nm "a", .array ⟨[1], [.fin 7]⟩)]) = .error .key :=
  ⟨_, by decide, rfl, rfl⟩

/-- With dropped numbers the bounds of a box still have the old size, so that no observation fits. -/
theorem bounds_violation :
    let s : Space := .box [2] [.fin 0, .fin (-1)] [.fin 1, .fin 1]
    let opts : Options := { drop := some [0] }
    ∃ sp f, s.wf = true ∧ statesSpec opts s = .ok sp ∧
      observe opts sp (.leaf { kind := .bool, shape := [] }) (.array ⟨[2], [.fin 1, .fin 0]⟩) = .ok f ∧ sp.fits f = false :=
  ⟨_, _, by decide, rfl, rfl, by decide⟩

/-- An index out of range is accepted, and the observations have another size than the specification says; so is a repeated index, which
drops a second number. -/
theorem index_violation :
    let s : Space := .box [3] [.fin 0, .fin 0, .fin 0] [.fin 9, .fin 9, .fin 9]
    let a : Value := .array ⟨[3], [.fin 1, .fin 2, .fin 3]⟩
    let actions : Spec := .leaf { kind := .bool, shape := [] }
    (∃ sp f, statesSpec { drop := some [7] } s = .ok sp ∧ observe { drop := some [7] } sp actions a = .ok f ∧ sp.fits f = false) ∧
    (∃ sp, statesSpec { drop := some [1, 1] } s = .ok sp ∧
      observe { drop := some [1, 1] } sp actions a = .ok (.one ⟨[1], [.fin 1]⟩) ∧
      without [1, 1] 0 [.fin 1, .fin 2, .fin 3] = [.fin 1, .fin 3]) :=
  ⟨⟨_, _, rfl, rfl, by decide⟩, ⟨_, rfl, rfl, by decide⟩⟩

end Verif.Props.Gym
