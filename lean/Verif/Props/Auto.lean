import Verif.Net.AutoLemmas

/-! # Properties of automatically configured networks -/

namespace Verif.Props.Auto

open Verif.Net

set_option synthInstance.maxSize 2000

instance decEqExcept {ε α : Type} [DecidableEq ε] [DecidableEq α] : DecidableEq (Except ε α)
  | .ok a, .ok b => if h : a = b then isTrue (by rw [h]) else isFalse fun e => h (by injection e)
  | .error a, .error b => if h : a = b then isTrue (by rw [h]) else isFalse fun e => h (by injection e)
  | .ok _, .error _ => isFalse nofun
  | .error _, .ok _ => isFalse nofun

/-! ### Examples of states -/

def image : String × ASpec × Option Nat := ("image", ⟨.float, [8, 8, 3]⟩, none)
def level : String × ASpec × Option Nat := ("level", ⟨.int, []⟩, some 4)
def clash : String × ASpec × Option Nat := ("image-embedding", ⟨.float, [5]⟩, none)

/-- C90: for a single state which is supported the output is a vector of the layer size. -/
theorem single (a : AutoArgs) (i : AInput) (hs : 1 ≤ a.size) (hd : 1 ≤ a.depth) (hf : a.finalSize = none) (hfd : a.finalDepth = none ∨ a.finalDepth = some 1)
    (hi : i.supported) : autoNetwork a [i] none = .ok ⟨.float, [a.size]⟩ := by
  obtain ⟨ls, hls⟩ := (autoState_ok a i).mpr hi
  have hstates : autoStates a [i] = .ok (ls ++ []) := by rw [autoStates, hls]; rfl
  have hauto : auto a [i] none = .ok (ls ++ [] ++ [] ++ if a.rnn then [.lstm a.size] else []) := by
    rw [auto, if_neg (by simp [hf]), if_neg (by rcases hfd with h | h <;> simp [h]), if_neg (by simp), hstates, hf]
    rfl
  have hchain : ∃ T, chain autoLayer ls ⟨i.spec, autoStart [i]⟩ = .ok ⟨fvec a.size, T⟩ := by
    obtain ⟨first, layer, hl, he⟩ := autoState_eq hls
    cases hn : i.name with
    | none =>
      rw [hn] at he
      exact ⟨_, by rw [he]; exact core_eq hs hd hl _⟩
    | some n =>
      have hi' : i = named (n, i.spec, i.numValues) := by rw [named, ← hn]
      rw [hi'] at hls
      refine ⟨_, autoState_named hs hd hls ?_ ?_⟩
      · show List.lookup n [(i.name.getD "state", i.spec)] = _
        rw [hn, Option.getD_some, List.lookup_cons, beq_self_eq_true]
      · show List.lookup (embName n) [(i.name.getD "state", i.spec)] = _
        rw [hn, Option.getD_some, List.lookup_cons, beq_eq_false_iff_ne.mpr (embName_ne n)]
        rfl
  obtain ⟨T, hT⟩ := hchain
  rw [autoNetwork, List.head?_cons, hauto]
  dsimp only
  rw [List.append_nil, List.append_nil, chain_append' hT]
  cases a.rnn with
  | false => rfl
  | true =>
    rw [if_pos rfl, chain_one (autoLayer_plain rfl (lstm_eq hs a.size) T)]
    rfl

example : autoNetwork {} [⟨none, ⟨.float, [8, 8, 3]⟩, none⟩] none = .ok ⟨.float, [64]⟩ :=
  single {} _ (by decide) (by decide) rfl (.inr rfl) ⟨nofun, by decide⟩

/-- C90: for several supported states with different names the output is a vector of the documented size. Missing: states one of which is called like
another one with `-embedding` (`clash_violation`). -/
theorem several_partial (a : AutoArgs) (ps : List (String × ASpec × Option Nat)) (hs : 1 ≤ a.size) (hd : 1 ≤ a.depth) (hf : ∀ n, a.finalSize = some n → 1 ≤ n)
    (hn : 2 ≤ ps.length) (hnd : (ps.map Prod.fst).Nodup) (hc : ∀ p ∈ ps, ∀ q ∈ ps, p.1 ++ "-embedding" ≠ q.1) (hi : ∀ p ∈ ps, (named p).supported) :
    autoNetwork a (ps.map named) none = .ok ⟨.float, [outSize a ps.length]⟩ := by
  obtain ⟨ls, hls⟩ := (autoStates_ok a (ps.map named)).mpr fun i h => by
    obtain ⟨p, hp, rfl⟩ := List.mem_map.mp h
    exact hi p hp
  have hlen : (ps.map named).length ≠ 1 := by rw [List.length_map]; omega
  have hmap : ((ps.map named).filterMap fun i => i.name.map (· ++ "-embedding")) = ps.map fun p => embName p.1 := by
    rw [List.filterMap_map, ← List.filterMap_eq_map]
    rfl
  have hfs : 1 ≤ a.finalSize.getD a.size := by
    cases h : a.finalSize with
    | none => exact hs
    | some n => exact hf n h
  have hauto : auto a (ps.map named) none = .ok (ls ++ (.retrieve (ps.map fun p => embName p.1) ::
      List.replicate (a.finalDepth.getD 0) (.dense (a.finalSize.getD a.size))) ++ if a.rnn then [.lstm (a.finalSize.getD a.size)] else []) := by
    rw [auto, if_neg fun h => hlen h.1, if_neg fun h => hlen h.1, if_neg (by simp), hls]
    dsimp only
    rw [if_neg hlen, hmap]
  obtain ⟨p0, hp0⟩ : ∃ p, (ps.map named).head? = some p := by
    cases ps with
    | nil => cases hn
    | cons p ps => exact ⟨_, rfl⟩
  have hlook : ∀ (qs : List (String × ASpec × Option Nat)), (qs.map Prod.fst).Nodup → ∀ p ∈ qs, (autoStart (qs.map named)).lookup p.1 = some p.2.1 := by
    intro qs
    induction qs with
    | nil => intro _ p hp; cases hp
    | cons q qs ih =>
      intro hnd p hp
      rw [List.map_cons, List.nodup_cons] at hnd
      show List.lookup p.1 ((q.1, q.2.1) :: autoStart (qs.map named)) = _
      rw [List.lookup_cons]
      rcases List.mem_cons.mp hp with rfl | hp
      · rw [beq_self_eq_true]
      · rw [beq_eq_false_iff_ne.mpr fun e : p.1 = q.1 => hnd.1 (e ▸ List.mem_map_of_mem hp)]
        exact ih hnd.2 p hp
  have hfresh : ∀ (qs : List (String × ASpec × Option Nat)) (k : String), (∀ q ∈ qs, k ≠ q.1) → (autoStart (qs.map named)).lookup k = none := by
    intro qs k
    induction qs with
    | nil => intro _; rfl
    | cons q qs ih =>
      intro h
      show List.lookup k ((q.1, q.2.1) :: autoStart (qs.map named)) = _
      rw [List.lookup_cons, beq_eq_false_iff_ne.mpr (h q (by simp))]
      exact ih fun x hx => h x (by simp [hx])
  obtain ⟨⟨o, T⟩, hst, hin, -⟩ := autoStates_named hs hd ps hc hnd ls hls ⟨p0.spec, autoStart (ps.map named)⟩ (hlook ps hnd)
    (fun p hp => hfresh ps _ (hc p hp))
  have hr : autoLayer (.retrieve (ps.map fun p => embName p.1)) ⟨o, T⟩ = .ok ⟨fvec (ps.length * a.size), T⟩ := by
    have hall : lookupAll (ps.map fun p => embName p.1) T = some (List.replicate ps.length (fvec a.size)) := by
      rw [lookupAll_same (v := fvec a.size) fun t h => by
        obtain ⟨p, hp, rfl⟩ := List.mem_map.mp h
        exact hin p hp, List.length_map]
    have hnd' : (ps.map fun p => embName p.1).Nodup := by
      have : (ps.map fun p => embName p.1) = (ps.map Prod.fst).map embName := by rw [List.map_map]; rfl
      rw [this]
      exact nodup_map_embName hnd
    obtain ⟨m, hm⟩ : ∃ m, ps.length = m + 2 := ⟨ps.length - 2, by omega⟩
    simp only [autoLayer, hall]
    rw [if_neg, hm, join_eq]
    rintro (h | h)
    · rw [List.map_eq_nil_iff] at h; rw [h] at hn; cases hn
    · exact h hnd'
  have hdense : ∃ k, chain autoLayer (.retrieve (ps.map fun p => embName p.1) ::
      List.replicate (a.finalDepth.getD 0) (.dense (a.finalSize.getD a.size))) ⟨o, T⟩ = .ok ⟨fvec k, T⟩ ∧
      k = if 0 < a.finalDepth.getD 0 then a.finalSize.getD a.size else ps.length * a.size := by
    by_cases h : 0 < a.finalDepth.getD 0
    · exact ⟨_, (chain_one hr).trans (chain_repeat rfl (dense_eq hfs _) (dense_eq hfs _) T h), by rw [if_pos h]⟩
    · have : a.finalDepth.getD 0 = 0 := by omega
      exact ⟨_, (chain_one hr).trans (by rw [this]; rfl), by rw [if_neg h]⟩
  obtain ⟨k, hk, hkeq⟩ := hdense
  rw [autoNetwork, hp0, hauto]
  dsimp only
  rw [List.append_assoc, chain_append' hst, chain_append' hk, outSize]
  cases a.rnn with
  | false =>
    show Except.ok (fvec k) = _
    rw [hkeq]
    by_cases h : 0 < a.finalDepth.getD 0
    · rw [if_pos h, if_pos (.inr ⟨by omega, h⟩)]; rfl
    · rw [if_neg h, if_neg (by simp; omega)]; rfl
  | true =>
    rw [if_pos rfl, chain_one (autoLayer_plain rfl (lstm_eq hfs k) T), if_pos (.inl rfl)]
    rfl

example : autoNetwork { finalSize := some 32 } ([image, level].map named) none = .ok ⟨.float, [32]⟩ :=
  several_partial { finalSize := some 32 } [image, level] (by decide) (by decide) (by rintro n ⟨⟩; decide) (by decide) (by decide) (by decide)
    (by intro p hp; simp at hp; rcases hp with rfl | rfl <;> exact ⟨by decide, by decide⟩)

/-- C90: a state called like another one with `-embedding` makes the network impossible, although all states are supported. -/
theorem clash_violation : (∀ p ∈ [image, clash], (named p).supported) ∧ autoNetwork {} ([image, clash].map named) none = .error .exists_ :=
  ⟨by intro p hp; simp at hp; rcases hp with rfl | rfl <;> exact ⟨by decide, by decide⟩, by decide +kernel⟩

/-- C90: the layers can be chosen only for supported states. -/
theorem unsupported (a : AutoArgs) (inputs : List AInput) (outputs : Option (List String)) (i : AInput) (hi : i ∈ inputs) (h : ¬ i.supported) :
    ∃ e, autoNetwork a inputs outputs = .error e := by
  cases hs : autoStates a inputs with
  | ok ls => exact absurd ((autoStates_ok a inputs).mp ⟨ls, hs⟩ i hi) h
  | error e =>
    have : ∃ e, auto a inputs outputs = .error e := by
      rw [auto, hs]
      split
      · exact ⟨_, rfl⟩
      · split
        · exact ⟨_, rfl⟩
        · split <;> exact ⟨_, rfl⟩
    obtain ⟨e', h'⟩ := this
    rw [autoNetwork, h']
    cases inputs.head? <;> exact ⟨_, rfl⟩

example : ¬ AInput.supported ⟨none, ⟨.float, [2, 2, 2, 2]⟩, none⟩ := fun h => absurd h.2 (by decide)
example : ¬ AInput.supported ⟨none, ⟨.int, [2, 2, 2]⟩, some 3⟩ := fun h => absurd h.2 (by decide)

/-- C90: for every state there are as many layers with weights as the depth. -/
theorem depth (a : AutoArgs) (i : AInput) (hd : 1 ≤ a.depth) (ls : List ALayer) (h : autoState a i = .ok ls) :
    ls.countP ALayer.weighted = a.depth := by
  obtain ⟨first, layer, hl, he⟩ := autoState_eq h
  have hfl : first.countP ALayer.weighted = 0 ∧ layer.weighted = true := by
    rw [shapeLayer] at hl
    split at hl
    · injection hl with hl; injection hl with h1 h2; subst h1 h2; exact ⟨rfl, rfl⟩
    · split at hl
      · injection hl with hl; injection hl with h1 h2; subst h1 h2; exact ⟨rfl, rfl⟩
      · split at hl
        · injection hl with hl; injection hl with h1 h2; subst h1 h2; exact ⟨rfl, rfl⟩
        · split at hl
          · injection hl with hl; injection hl with h1 h2; subst h1 h2; exact ⟨rfl, rfl⟩
          · cases hl
  have hcore : (stateCore a i.spec first layer).countP ALayer.weighted = a.depth := by
    rw [stateCore, List.countP_append, List.countP_append, List.countP_append, hfl.1, List.countP_replicate, if_pos hfl.2]
    have hp : List.countP ALayer.weighted (if i.spec.less 1 < i.spec.shape.length then [.pooling] else []) = 0 := by split <;> rfl
    rw [hp, ASpec.less]
    cases i.spec.embedded with
    | true => show 1 + 0 + (a.depth - 1) + 0 = a.depth; omega
    | false => show 0 + 0 + a.depth + 0 = a.depth; omega
  cases hn : i.name with
  | none => rw [hn] at he; rw [he, hcore]
  | some n =>
    rw [hn] at he
    rw [he, List.countP_append, List.countP_cons, hcore]
    rfl

example : ∃ ls, autoState {} (named image) = .ok ls := ⟨_, rfl⟩

/-- C90: after the states there are as many dense layers of the final size as the final depth, then the recurrent layer if there is one; for a single state
only the latter. -/
theorem final (a : AutoArgs) (inputs : List AInput) (ls all : List ALayer) (h : autoStates a inputs = .ok ls) (ha : auto a inputs none = .ok all) :
    ∃ r, all = ls ++ (if inputs.length = 1 then [] else .retrieve r :: List.replicate (a.finalDepth.getD 0) (.dense (a.finalSize.getD a.size))) ++
      (if a.rnn then [.lstm (a.finalSize.getD a.size)] else []) := by
  rw [auto, h] at ha
  split at ha
  · cases ha
  · split at ha
    · cases ha
    · split at ha
      · cases ha
      · injection ha with ha
        exact ⟨_, ha.symm⟩

/-- C90: final layers cannot be given for a single state, and named outputs never. -/
theorem arguments (a : AutoArgs) (i : AInput) (inputs : List AInput) (o : List String) :
    ((a.finalSize ≠ none ∨ (a.finalDepth ≠ none ∧ a.finalDepth ≠ some 1)) → autoNetwork a [i] none = .error .invalid) ∧
    ∃ e, autoNetwork a inputs (some o) = .error e := by
  constructor
  · intro h
    have : auto a [i] none = .error .invalid := by
      rw [auto]
      by_cases hf : a.finalSize = none
      · rw [if_neg (by simp [hf]), if_pos ⟨rfl, h.resolve_left (absurd hf)⟩]
      · rw [if_pos ⟨rfl, hf⟩]
    rw [autoNetwork, this]
    rfl
  · have : ∃ e, auto a inputs (some o) = .error e := by
      rw [auto]
      split
      · exact ⟨_, rfl⟩
      · split
        · exact ⟨_, rfl⟩
        · rw [if_pos (by simp)]; exact ⟨_, rfl⟩
    obtain ⟨e, he⟩ := this
    rw [autoNetwork, he]
    cases inputs.head? <;> exact ⟨_, rfl⟩

example : (({ finalSize := some 3 } : AutoArgs).finalSize ≠ none) := by decide

end Verif.Props.Auto
