import Verif.Resolve.Lemmas
import Verif.Resolve.ImportLemmas

/-!
# Properties C93 (module specifications) and C94 (module paths)
-/

namespace Verif.Props.Resolve

open Verif.Utils.Py
open Verif.Resolve

/-! ## C93 -/

/-- If a specification is accepted, it stands for the returned callable, and the constructor gets exactly the settings of the caller and of the
specification.
Missing: a file named like the keyword of the default is read instead (`shadow_default_violation`); a keyword which is also the name of a file
stands for the file (`shadow_violation`). -/
theorem sound_partial (w : World) (hw : w.Ok) (m : Modules) (name : String) (d : Option Default) (hs : Unshadowed w d) (fuel : Nat) (v : V)
    (hv : Uniq v) (kw : Kw) (hkw : UniqE kw) (ht : has "type" kw = false) (r : Built)
    (h : resolve w (some m) name fuel d false v kw = some r) :
    ∃ ds c first, Means w m d true v ds c first ∧ r.callee = c ∧ Good name kw ds first r :=
  resolve_sound w hw m name d hs fuel true v kw r hv hkw ht h

/-- A specification which stands for something is accepted, if its settings contradict neither each other nor those of the caller.
Missing: if the first registered module is no class, paths and strings are rejected (`path_violation`); a file named like the keyword of the
default; more nested specifications than the recursion limit allows. -/
theorem complete_partial (w : World) (hw : w.Ok) (m : Modules) (hmro : m.mro = true) (name : String) (d : Option Default) (hs : Unshadowed w d)
    (hd : DefaultFits m d) (v : V) (hv : Uniq v) (ds : List Kw) (c : Atom) (first : Option V) (h : Means w m d true v ds c first)
    (kw : Kw) (hkw : UniqE kw) (ht : has "type" kw = false) (hf : ∀ e ∈ kw :: ds, Free e) (hc : (kw :: ds).Pairwise Compatible) :
    ∃ n, ∀ fuel, n ≤ fuel → ∃ r, resolve w (some m) name fuel d false v kw = some r := by
  obtain ⟨n, hn⟩ := resolve_complete w hw m hmro name d hs (defaultFits_ok m d hd) true v ds c first h hv kw hkw ht hf hc
  exact ⟨n, fun fuel hfu => Option.isSome_iff_exists.1 (hn fuel hfu false nofun)⟩

/-- What a specification stands for is unique. -/
theorem means_unique (w : World) (m : Modules) (d : Option Default) (outer : Bool) (v : V) (ds ds' : List Kw) (c c' : Atom)
    (first first' : Option V) (h : Means w m d outer v ds c first) (h' : Means w m d outer v ds' c' first') :
    ds = ds' ∧ c = c' ∧ first = first' := by
  have hdef : ∀ i j, DefaultIs m d i → DefaultIs m d j → i = j := by
    intro i j hi hj
    cases hi with
    | cls => cases hj; rfl
    | key s _ h1 => cases hj with | key _ _ h2 => rw [h1] at h2; exact Option.some.inj h2
    | registered _ h1 => cases hj with | registered _ h2 => rw [h1] at h2; exact Option.some.inj h2
  induction h generalizing ds' c' first' with
  | callable outer i =>
    cases h' with
    | callable => exact ⟨rfl, rfl, rfl⟩
    | value _ _ _ hp => cases hp
  | file outer s v ds c first hfile _ ih =>
    cases h' with
    | file _ _ v' _ _ _ hfile' hm' => rw [hfile] at hfile'; cases hfile'; exact ih _ _ _ hm'
    | keyword _ _ _ hfile' | path _ _ _ hfile' | string _ _ hfile' => rw [hfile] at hfile'; cases hfile'
    | value _ _ _ hp => cases hp
  | keyword outer s i hfile hl =>
    cases h' with
    | file _ _ v' _ _ _ hfile' hm' => rw [hfile] at hfile'; cases hfile'
    | keyword _ _ _ _ hl' => rw [hl] at hl'; cases hl'; exact ⟨rfl, rfl, rfl⟩
    | path _ _ _ _ hl' | string _ _ _ hl' => rw [hl] at hl'; cases hl'
    | value _ _ _ hp => cases hp
  | path outer s i hfile hl hlib =>
    cases h' with
    | file _ _ v' _ _ _ hfile' hm' => rw [hfile] at hfile'; cases hfile'
    | keyword _ _ _ _ hl' => rw [hl] at hl'; cases hl'
    | path _ _ _ _ _ hlib' => rw [hlib] at hlib'; cases hlib'; exact ⟨rfl, rfl, rfl⟩
    | string _ _ _ _ hlib' => rw [hlib] at hlib'; cases hlib'
    | value _ _ _ hp => cases hp
  | string s i hfile hl hlib hd =>
    cases h' with
    | file _ _ v' _ _ _ hfile' hm' => rw [hfile] at hfile'; cases hfile'
    | keyword _ _ _ _ hl' => rw [hl] at hl'; cases hl'
    | path _ _ _ _ _ hlib' => rw [hlib] at hlib'; cases hlib'
    | string _ j _ _ _ hd' => rw [hdef i j hd hd']; exact ⟨rfl, rfl, rfl⟩
    | value _ _ _ hp => cases hp
  | typed outer spec t ds c first hft _ ih =>
    cases h' with
    | typed _ _ t' ds' _ _ hft' hm' =>
      rw [hft] at hft'; cases hft'
      obtain ⟨rfl, h2⟩ := ih _ _ _ hm'
      exact ⟨rfl, h2⟩
    | untyped _ _ _ hft' => rw [hft] at hft'; cases hft'
    | value _ _ _ hp => cases hp
  | untyped outer spec i hft hd =>
    cases h' with
    | typed _ _ t' ds' _ _ hft' hm' => rw [hft] at hft'; cases hft'
    | untyped _ _ j _ hd' => rw [hdef i j hd hd']; exact ⟨rfl, rfl, rfl⟩
    | value _ _ _ hp => cases hp
  | nothing outer i hd =>
    cases h' with
    | nothing _ j hd' => rw [hdef i j hd hd']; exact ⟨rfl, rfl, rfl⟩
    | value _ _ _ hp => cases hp
  | value outer v i hp hd =>
    cases h' with
    | value _ _ j _ hd' => rw [hdef i j hd hd']; exact ⟨rfl, rfl, rfl⟩
    | model _ _ hno => exact (hno i hd).elim
    | _ => cases hp
  | model outer i hno =>
    cases h' with
    | value _ _ j _ hd' => exact (hno j hd').elim
    | model => exact ⟨rfl, rfl, rfl⟩

/-- The same class with the same arguments, whether the type of a dictionary is a keyword, a path, or the class itself, and whether the
dictionary is given or written to a file. -/
theorem same_forms (w : World) (m : Modules) (hmro : m.mro = true) (name : String) (d : Option Default) (hd : DefaultFits m d)
    (b : Bool) (a kw : Kw) (ht : has "type" kw = false) (ha : has "type" a = false) (hr : taken kw = false) (c : Nat) (fuel : Nat)
    (x : V) (hx : x = .atom (.cls c) ∨ ∃ s, x = .atom (.str s) ∧ w.file s = none ∧
      (m.entries.lookup s = some c ∨ (m.entries.lookup s = none ∧ w.library s = .found c))) :
    resolve w (some m) name (fuel + 3) d b (.dct (.cons "type" x a)) kw =
      (merge kw a).bind (fun kw' => if taken kw' then none else some (call name (.cls c) kw')) ∧
    ∀ f, w.file f = some (.dct (.cons "type" x a)) →
      resolve w (some m) name (fuel + 4) d b (.atom (.str f)) kw =
        (merge kw a).bind (fun kw' => if taken kw' then none else some (call name (.cls c) kw')) := by
  simp only [show ∀ kw, taken kw = reserved.any (has · kw) from fun _ => rfl] at hr ⊢
  have hd := defaultFits_ok m d hd
  have main : ∀ b, resolve w (some m) name (fuel + 3) d b (.dct (.cons "type" x a)) kw =
      (merge kw a).bind (fun kw' => if reserved.any (has · kw') then none else some (call name (.cls c) kw')) := by
    intro b
    rw [resolve_typed w m name (fuel + 2) d b x a kw ht ha hr hd]
    congr
    funext kw'
    have hcls : ∀ n, resolve w (some m) name (n + 1) d true (.atom (.cls c)) kw' =
        if reserved.any (has · kw') then none else some (call name (.cls c) kw') := by
      intro n
      rw [resolve.eq_def]
      simp only [hd, reduceCtorEq, if_false, Bool.true_eq_false]
    rcases hx with rfl | ⟨s, rfl, hfile, hl | ⟨hl, hlib⟩⟩
    · exact hcls _
    · rw [resolve.eq_def]
      simp only [hd, hfile, hl, Bool.true_eq_false, if_false, hcls fuel]
      split <;> rfl
    · rw [resolve.eq_def]
      simp only [hd, hfile, hl, hlib, hmro, Bool.true_eq_false, if_false, hcls fuel]
      split <;> rfl
  refine ⟨main b, fun f hf => ?_⟩
  rw [resolve.eq_def]
  dsimp only
  rw [hr, hd, hf]
  exact main true

private def kws (l : List (String × V)) : Kw := l.foldr (fun p es => .cons p.1 p.2 es) .nil

/-- Memories (`memories/__init__.py`): recent is 1, replay is 2, the default. `memory.json` contains `dict(type='replay', capacity=100)`. -/
private def memories : Modules := ⟨[("default", 2), ("recent", 1), ("replay", 2)], true⟩
private def here : World where
  file s := if s = "memory.json" then some (.dct (kws [("type", .atom (.str "replay")), ("capacity", .atom (.num 100))])) else none
  library s := if s = "tensorforce.core.memories.Recent" then .found 1 else .absent

/-- `memory=dict(type='memory.json', device='cpu')` gives a replay memory with capacity and device. -/
example : ∃ r, resolve here (some memories) "memory" 9 none false
      (.dct (kws [("type", .atom (.str "memory.json")), ("device", .atom (.str "cpu"))])) (kws [("min_capacity", .atom (.num 5))]) = some r ∧
    r.callee = .cls 2 ∧ r.first = none ∧
    r.kwargs = kws [("min_capacity", .atom (.num 5)), ("device", .atom (.str "cpu")), ("capacity", .atom (.num 100)),
      ("name", .atom (.str "memory"))] := ⟨_, rfl, rfl, rfl, rfl⟩

/-- A number is the first argument of the default; a contradicting setting is rejected. -/
example : resolve here (some memories) "memory" 9 none false (.atom (.num 100)) .nil =
      some ⟨.cls 2, some (.atom (.num 100)), kws [("name", .atom (.str "memory"))]⟩ ∧
    resolve here (some memories) "memory" 9 none false (.atom (.str "memory.json")) (kws [("capacity", .atom (.num 7))]) = none := ⟨rfl, rfl⟩

/-- The specification `memory.json` stands for the replay memory, and its settings are compatible with those of the caller. -/
example : Means here memories none true (.atom (.str "memory.json"))
      [kws [("type", .atom (.str "replay")), ("capacity", .atom (.num 100))]] (.cls 2) none ∧
    (∀ e ∈ [kws [("min_capacity", .atom (.num 5))], kws [("type", .atom (.str "replay")), ("capacity", .atom (.num 100))]], Free e) ∧
    [kws [("min_capacity", .atom (.num 5))], kws [("type", .atom (.str "replay")), ("capacity", .atom (.num 100))]].Pairwise Compatible ∧
    DefaultFits memories none ∧ Unshadowed here none := by
  refine ⟨.file _ _ _ _ _ _ rfl (.typed _ _ (.atom (.str "replay")) [] _ _ rfl (.keyword _ _ _ rfl rfl)), ?_, ?_, trivial, trivial⟩
  · intro e he
    simp only [List.mem_cons, List.not_mem_nil, or_false] at he
    rcases he with rfl | rfl <;> intro k hk <;> simp only [List.mem_cons, List.not_mem_nil, or_false] at hk <;>
      rcases hk with rfl | rfl | rfl | rfl | rfl | rfl <;> rfl
  · simp only [List.pairwise_cons, List.mem_cons, List.not_mem_nil, or_false, forall_eq, false_implies, implies_true, List.Pairwise.nil, and_true]
    intro k p x y hk hx hy
    simp only [kws, List.foldr, Val.at, Ents.find] at hx hy
    by_cases h1 : "min_capacity" = k
    · subst h1; simp at hy
    · simp [h1] at hx

/-- Violation: a keyword does not stand for the registered class if there is a file of that name. -/
theorem shadow_violation (w : World) (m : Modules) (name s : String) (c c' : Nat) (h : w.file s = some (.atom (.cls c)))
    (_ : m.entries.lookup s = some c') (fuel : Nat) :
    resolve w (some m) name (fuel + 2) none false (.atom (.str s)) .nil = some (call name (.cls c) .nil) := by
  rw [resolve.eq_def]
  dsimp only
  rw [h]
  rfl

/-- Violation: nor is the default taken which is given as a keyword. -/
theorem shadow_default_violation (w : World) (m : Modules) (name s : String) (c c' : Nat) (h : w.file s = some (.atom (.cls c)))
    (hl : m.entries.lookup s = some c') (fuel : Nat) :
    DefaultIs m (some (.key s)) c' ∧
      resolve w (some m) name (fuel + 3) (some (.key s)) false (.atom .none) .nil = some (call name (.cls c) .nil) := by
  refine ⟨.key s c' hl, ?_⟩
  rw [resolve.eq_def]
  simp only [defaultOk, hl, defaultModule, defaultVal]
  rw [resolve.eq_def]
  dsimp only
  rw [h]
  rfl

/-- Violation: if the first registered module is no class, as for objectives, every path is rejected, although the class exists. -/
theorem path_violation (w : World) (entries : List (String × Nat)) (name s : String) (c : Nat) (h : w.file s = none)
    (hl : entries.lookup s = none) (hlib : w.library s = .found c) (fuel : Nat) (d : Option Default) (b : Bool) (kw : Kw) :
    Means w ⟨entries, false⟩ d true (.atom (.str s)) [] (.cls c) none ∧
      resolve w (some ⟨entries, false⟩) name fuel d b (.atom (.str s)) kw = none := by
  refine ⟨.path _ s c h hl hlib, ?_⟩
  match fuel with
  | 0 => rfl
  | fuel + 1 =>
    rw [resolve.eq_def]
    dsimp only
    simp only [h, hl]
    split
    · rfl
    · split <;> rfl

/-- Violation: layered networks reject every specification with a first argument, for instance a number as `l2_regularization`, which stands for
a constant parameter. -/
theorem network_value_violation (w : World) (m : Modules) (name : String) (fuel : Nat) (d : Option Default) (b : Bool) (v : V) (kw : Kw) (r : Built)
    (h : resolve w (some m) name fuel d b v kw = some r) (hf : r.first.isSome = true) : layerbased r = none := by
  obtain ⟨callee, kw', rfl⟩ := resolve_call w m name fuel d b v kw r h
  unfold layerbased
  cases h1 : (call name callee kw').first with
  | none => rw [h1] at hf; cases hf
  | some x =>
    cases h2 : (call name callee kw').kwargs with
    | nil =>
      have := congrArg (fun e : Kw => e.find "name") h2
      simp [call, find_put_same, Ents.find] at this
    | cons _ _ _ => rfl

/-- `l2_regularization=0.1` (here 1): the class of constants, module 1, with the number as first argument, but rejected by layered networks. -/
example : ∃ r, resolve here (some ⟨[("constant", 1), ("default", 1)], true⟩) "l2_regularization" 9 none false (.atom (.num 1)) .nil = some r ∧
    r.callee = .cls 1 ∧ r.first = some (.atom (.num 1)) ∧ layerbased r = none := ⟨_, rfl, rfl, rfl, rfl⟩

/-- Violation: within a layered network, a class does not stand for itself, but for the function layer which calls it. -/
theorem layer_class_violation (w : World) (m : Modules) (hmro : m.mro = true) (name : String) (f c : Nat) (hw : w.file "function" = none)
    (hf : m.entries.lookup "function" = some f) (fuel : Nat) :
    ∃ r, resolve w (some m) name (fuel + 3) none false (layerSpec (.atom (.cls c))) .nil = some r ∧ r.callee = .cls f ∧
      r.kwargs.find "function" = some (.atom (.cls c)) := by
  refine ⟨call name (.cls f) (.cons "function" (.atom (.cls c)) .nil), ?_, rfl, rfl⟩
  exact (same_forms w m hmro name none trivial false (.cons "function" (.atom (.cls c)) .nil) .nil rfl rfl rfl f fuel (.atom (.str "function"))
    (.inr ⟨_, rfl, hw, .inl hf⟩)).1

/-! ## C94 -/

/-- A class is found only where the path says, and it is a proper subclass of what is asked for. -/
theorem path_sound (L : Library) (parent : Nat) (s : String) (c : Nat) (h : tryImport L parent s = .found c) :
    L.sub c parent = true ∧ c ≠ parent ∧
    ((∃ content n, L.modules s = some content ∧ (n, Obj.cls c) ∈ content) ∨
      (L.modules s = none ∧ ∃ mod n content, s = mod ++ "." ++ n ∧ L.modules mod = some content ∧ content.lookup n = some (.cls c))) := by
  unfold tryImport at h
  split at h
  · rename_i content hc
    split at h
    · simp at h
    · rename_i c' hf
      split at h
      · simp at h
      · rename_i hne
        cases h
        have hm := filter_mem L _ c (by rw [hf]; simp)
        obtain ⟨⟨n, hn⟩, hsub⟩ := (mem_classesOf L parent content c).1 hm
        exact ⟨hsub, hne, .inl ⟨content, n, hc, hn⟩⟩
    · simp at h
  · rename_i hn
    split at h
    · simp at h
    · rename_i mod n hs
      split at h
      · simp at h
      · rename_i content hc
        split at h
        · rename_i c' hl
          split at h
          · rename_i hb
            cases h
            simp only [Bool.and_eq_true, bne_iff_ne, ne_eq] at hb
            exact ⟨hb.1, hb.2, .inr ⟨hn, mod, n, content, rsplit_some s mod n hs, hc, hl⟩⟩
          · simp at h
        · simp at h

/-- A path to a class stands for this class. -/
theorem path_class (L : Library) (parent : Nat) (mod n : String) (content : List (String × Obj)) (c : Nat)
    (hn : '.' ∉ n.toList) (h0 : L.modules (mod ++ "." ++ n) = none) (h1 : L.modules mod = some content)
    (h2 : content.lookup n = some (.cls c)) (h3 : L.sub c parent = true) (h4 : c ≠ parent) :
    tryImport L parent (mod ++ "." ++ n) = .found c := by
  simp [tryImport, h0, rsplit_append mod n hn, h1, h2, h3, h4]

/-- A path to a module stands for the only class of the kind asked for in this module, next to which the module may have imported the kind
itself.
Missing: a class with two names (`alias_violation`), a class together with its own base class (`base_violation`). -/
theorem path_module_partial (L : Library) (parent : Nat) (s : String) (content : List (String × Obj)) (c : Nat) (h1 : L.modules s = some content)
    (hc : classesOf L parent content = [c] ∨ classesOf L parent content = [c, parent] ∨ classesOf L parent content = [parent, c])
    (hne : c ≠ parent) (hanti : L.sub parent c = false) (hrefl : L.sub parent parent = true) :
    tryImport L parent s = .found c := by
  have hsub : L.sub c parent = true := by
    have : c ∈ classesOf L parent content := by rcases hc with h | h | h <;> rw [h] <;> simp
    exact ((mem_classesOf L parent content c).1 this).2
  unfold tryImport
  rw [h1]
  rcases hc with h | h | h <;> simp [h, filterClasses, hanti, hrefl, hsub, hne]

/-- A module stands for one of several classes only if all of them are subclasses of each of the others. -/
theorem path_unambiguous (L : Library) (parent : Nat) (s : String) (content : List (String × Obj)) (c x : Nat)
    (h1 : L.modules s = some content) (h : tryImport L parent s = .found c) (n : String) (hx : (n, Obj.cls x) ∈ content)
    (hs : L.sub x parent = true) (hne : x ≠ c) : L.sub c x = true := by
  unfold tryImport at h
  rw [h1] at h
  simp only at h
  split at h
  · simp at h
  · rename_i c' hf
    split at h
    · simp at h
    · cases h
      exact filter_singleton L _ c x hf ((mem_classesOf L parent content x).2 ⟨⟨n, hx⟩, hs⟩) hne c (filter_mem L _ c (by rw [hf]; simp))
  · simp at h

/-- Class 0 is `Network`, of which 1 and 2 are subclasses; 2 is also a subclass of 1. -/
private def lib (content : List (String × Obj)) : Library where
  modules s := if s = "my_module" then some content else none
  sub x y := x == y || y == 0 || (x == 2 && y == 1)

example : tryImport (lib [("MyNetwork", .cls 1), ("Network", .cls 0), ("np", .other)]) 0 "my_module" = .found 1 ∧
    tryImport (lib [("MyNetwork", .cls 1), ("Network", .cls 0)]) 0 "my_module.MyNetwork" = .found 1 ∧
    tryImport (lib [("MyNetwork", .cls 1)]) 0 "other_module" = .absent ∧
    classesOf (lib [("MyNetwork", .cls 1), ("Network", .cls 0), ("np", .other)]) 0 [("MyNetwork", .cls 1), ("Network", .cls 0), ("np", .other)] =
      [1, 0] := by decide +kernel

/-- Violation: the only class of a module is not found if it has two names (line 88: it is a subclass of itself and therefore taken for a base
class). -/
theorem alias_violation (L : Library) (parent c : Nat) (n n' s : String) (h1 : L.modules s = some [(n, .cls c), (n', .cls c)])
    (hs : L.sub c parent = true) (hr : L.sub c c = true) : tryImport L parent s = .absent := by
  simp [tryImport, h1, classesOf, hs, filterClasses, hr]

/-- Violation: a module which imports the kind, a base class and defines a class derived from it is rejected as ambiguous. -/
theorem base_violation :
    tryImport (lib [("Base", .cls 1), ("MyNetwork", .cls 2), ("Network", .cls 0)]) 0 "my_module" = .raises ∧
    tryImport (lib [("Base", .cls 1), ("MyNetwork", .cls 2)]) 0 "my_module" = .found 2 := by decide +kernel

end Verif.Props.Resolve
