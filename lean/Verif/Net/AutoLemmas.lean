import Verif.Net.AutoSpec
import Verif.Net.Lemmas
import Verif.Layer.RetrieveLemmas

/-! Lemmas on `AutoNetwork`. -/

namespace Verif.Net

open Verif.Layer

def fvec (n : Nat) : ASpec := ⟨.float, [n]⟩

theorem chain_append' {σ γ : Type} {f : γ → σ → Except NError σ} {l m : List γ} {s t : σ} (h : chain f l s = .ok t) :
    chain f (l ++ m) s = chain f m t := by
  induction l generalizing s with
  | nil => rw [chain] at h; injection h with h; rw [h]; rfl
  | cons o os ih =>
    rw [List.cons_append, chain]
    rw [chain] at h
    cases ho : f o s with
    | error e => rw [ho] at h; cases h
    | ok s' => rw [ho] at h; exact ih h

theorem chain_one {σ γ : Type} {f : γ → σ → Except NError σ} {o : γ} {m : List γ} {s t : σ} (h : f o s = .ok t) :
    chain f (o :: m) s = chain f m t := by
  rw [chain, h]

theorem length_same (n : Nat) : convOutputLength .same n axis3 = .ok (n : Int) := by
  rw [convOutputLength]
  dsimp only
  rw [if_neg (by decide)]
  exact congrArg _ (by show ((n : Int) + (1 : Nat) - 1) / (1 : Nat) = n; omega)

theorem channels_pos {n : Nat} (h : 1 ≤ n) : ((Trans.channels ⟨(n : Int), false⟩ : Nat) : Int) = n := by
  rw [Trans.channels]
  dsimp only
  omega

theorem announceConv_eq {as : List Axis} {n : Nat} (h : 1 ≤ n) {x : List Nat} {k : Nat} {lens : List Int}
    (hp : perAxis (convOutputLength .same) x as = .ok lens) : announceConv .same as ⟨(n : Int), false⟩ (x ++ [k]) = .ok (lens ++ [(n : Int)]) := by
  rw [announceConv, if_neg (by simp), List.dropLast_concat, hp]
  dsimp only
  rw [if_neg (by show ¬ (n : Int) = 0; omega), channels_pos h]

theorem dense_eq {n : Nat} (h : 1 ≤ n) (k : Nat) : announce (.dense n) (fvec k) = .ok (fvec n) := by
  rw [announce, floatShape, if_neg (by simp [fvec]), show (fvec k).shape = [] ++ [k] from rfl, announceConv_eq h (lens := []) rfl]
  rfl

theorem lstm_eq {n : Nat} (h : 1 ≤ n) (k : Nat) : announce (.lstm n) (fvec k) = .ok (fvec n) := dense_eq h k

theorem conv1d_eq {n : Nat} (h : 1 ≤ n) (a k : Nat) : announce (.conv1d n) ⟨.float, [a, k]⟩ = .ok ⟨.float, [a, n]⟩ := by
  rw [announce, floatShape, if_neg (by simp), show [a, k] = [a] ++ [k] from rfl,
    announceConv_eq h (lens := [(a : Int)]) (by rw [perAxis, length_same]; rfl)]
  rfl

theorem conv2d_eq {n : Nat} (h : 1 ≤ n) (a b k : Nat) : announce (.conv2d n) ⟨.float, [a, b, k]⟩ = .ok ⟨.float, [a, b, n]⟩ := by
  rw [announce, floatShape, if_neg (by simp), show [a, b, k] = [a, b] ++ [k] from rfl,
    announceConv_eq h (lens := [(a : Int), (b : Int)]) (by rw [perAxis, length_same, perAxis, length_same]; rfl)]
  rfl

/-- A layer with one input. -/
def ALayer.plain : ALayer → Bool
  | .retrieve _ | .register _ => false
  | _ => true

theorem autoLayer_plain {l : ALayer} (hl : l.plain = true) {s t : ASpec} (h : announce l s = .ok t) (T : List (String × ASpec)) :
    autoLayer l ⟨s, T⟩ = .ok ⟨t, T⟩ := by
  cases l <;> first | (exfalso; cases hl; done) | simp only [autoLayer, h]

theorem chain_replicate {l : ALayer} (hl : l.plain = true) {s : ASpec} (h : announce l s = .ok s) (T : List (String × ASpec)) (n : Nat) :
    chain autoLayer (List.replicate n l) ⟨s, T⟩ = .ok ⟨s, T⟩ := by
  induction n with
  | zero => rfl
  | succ n ih => rw [List.replicate_succ, chain_one (autoLayer_plain hl h T), ih]

theorem chain_repeat {l : ALayer} (hl : l.plain = true) {s t : ASpec} (h : announce l s = .ok t) (h' : announce l t = .ok t)
    (T : List (String × ASpec)) {n : Nat} (hn : 1 ≤ n) : chain autoLayer (List.replicate n l) ⟨s, T⟩ = .ok ⟨t, T⟩ := by
  obtain ⟨m, rfl⟩ : ∃ m, n = m + 1 := ⟨n - 1, by omega⟩
  rw [List.replicate_succ, chain_one (autoLayer_plain hl h T), chain_replicate hl h']

/-- The layers of a state without `retrieve` and `register`. -/
def stateCore (a : AutoArgs) (s : ASpec) (first : List ALayer) (layer : ALayer) : List ALayer :=
  (if s.embedded then [.embedding a.size] else []) ++ first ++ List.replicate (s.less a.depth) layer ++
    (if s.less 1 < s.shape.length then [.pooling] else [])

theorem pooling_eq (l : List Nat) (k : Nat) : announce .pooling ⟨.float, l ++ [k]⟩ = .ok (fvec k) := by
  rw [announce, floatShape, if_neg (by simp), announcePooling, List.getLast?_concat]
  rfl

theorem flatten_eq : announce .flatten ⟨.float, []⟩ = .ok (fvec 1) := rfl

theorem embedding_eq {s : ASpec} (h : s.embedded = true) {n : Nat} (hn : 1 ≤ n) : announce (.embedding n) s = .ok ⟨.float, s.shape ++ [n]⟩ := by
  rw [announce, if_pos h, if_neg (by omega)]

theorem core_eq {a : AutoArgs} (hs : 1 ≤ a.size) (hd : 1 ≤ a.depth) {s : ASpec} {first : List ALayer} {layer : ALayer}
    (h : shapeLayer s a.size = .ok (first, layer)) (T : List (String × ASpec)) :
    chain autoLayer (stateCore a s first layer) ⟨s, T⟩ = .ok ⟨fvec a.size, T⟩ := by
  obtain ⟨ty, sh⟩ := s
  rw [shapeLayer] at h
  rw [stateCore]
  by_cases he : ASpec.embedded ⟨ty, sh⟩ = true
  · have hl : ∀ n, ASpec.less ⟨ty, sh⟩ n = n - 1 := fun n => by rw [ASpec.less, if_pos he]
    rw [hl, hl, hl] at h
    rw [if_pos he, hl, hl, List.append_assoc, List.append_assoc, List.singleton_append, chain_one (autoLayer_plain rfl (embedding_eq he hs) T)]
    dsimp only at h ⊢
    match sh with
    | [] =>
      injection h with h; injection h with h1 h2; subst h1 h2
      rw [List.nil_append]
      exact chain_append' (chain_replicate rfl (dense_eq hs a.size) T (a.depth - 1))
    | [x] =>
      injection h with h; injection h with h1 h2; subst h1 h2
      rw [List.nil_append]
      refine (chain_append' (chain_replicate rfl (conv1d_eq hs x a.size) T (a.depth - 1))).trans ?_
      rw [if_pos (by simp)]
      exact chain_one (autoLayer_plain rfl (pooling_eq [x] a.size) T)
    | [x, y] =>
      injection h with h; injection h with h1 h2; subst h1 h2
      rw [List.nil_append]
      refine (chain_append' (chain_replicate rfl (conv2d_eq hs x y a.size) T (a.depth - 1))).trans ?_
      rw [if_pos (by simp)]
      exact chain_one (autoLayer_plain rfl (pooling_eq [x, y] a.size) T)
    | x :: y :: z :: l =>
      simp only [List.length_cons] at h
      rw [if_neg (by omega), if_neg (by omega), if_neg (by omega), if_neg (by omega)] at h
      cases h
  · have hl : ∀ n, ASpec.less ⟨ty, sh⟩ n = n := fun n => by rw [ASpec.less, if_neg he]
    have hty : ty = .float := by cases ty <;> first | rfl | exact absurd rfl he
    subst hty
    rw [hl, hl, hl] at h
    rw [if_neg he, hl, hl, List.nil_append]
    dsimp only at h ⊢
    match sh with
    | [] =>
      injection h with h; injection h with h1 h2; subst h1 h2
      rw [List.append_assoc, List.singleton_append, chain_one (autoLayer_plain rfl flatten_eq T),
        chain_append' (chain_repeat rfl (dense_eq hs 1) (dense_eq hs a.size) T hd)]
      rfl
    | [x] =>
      injection h with h; injection h with h1 h2; subst h1 h2
      rw [List.nil_append]
      exact chain_append' (chain_repeat rfl (dense_eq hs x) (dense_eq hs a.size) T hd)
    | [x, y] =>
      injection h with h; injection h with h1 h2; subst h1 h2
      rw [List.nil_append]
      refine (chain_append' (chain_repeat rfl (conv1d_eq hs x y) (conv1d_eq hs x a.size) T hd)).trans ?_
      rw [if_pos (by simp)]
      exact chain_one (autoLayer_plain rfl (pooling_eq [x] a.size) T)
    | [x, y, z] =>
      injection h with h; injection h with h1 h2; subst h1 h2
      rw [List.nil_append]
      refine (chain_append' (chain_repeat rfl (conv2d_eq hs x y z) (conv2d_eq hs x y a.size) T hd)).trans ?_
      rw [if_pos (by simp)]
      exact chain_one (autoLayer_plain rfl (pooling_eq [x, y] a.size) T)
    | x :: y :: z :: w :: l =>
      simp only [List.length_cons] at h
      rw [if_neg (by omega), if_neg (by omega), if_neg (by omega), if_neg (by omega)] at h
      cases h

theorem shapeLayer_ok (s : ASpec) (size : Nat) : (∃ p, shapeLayer s size = .ok p) ↔ s.shape.length ≤ if s.type = .float then 3 else 2 := by
  have hl : ∀ n, s.less n = if s.type = .float then n else n - 1 := by
    intro n
    rw [ASpec.less, ASpec.embedded]
    cases s.type <;> rfl
  rw [shapeLayer, hl, hl, hl]
  by_cases hf : s.type = .float
  · simp only [if_pos hf]
    constructor
    · rintro ⟨p, h⟩
      split at h
      · omega
      · split at h
        · omega
        · split at h
          · omega
          · split at h
            · omega
            · cases h
    · intro h
      split
      · exact ⟨_, rfl⟩
      · split
        · exact ⟨_, rfl⟩
        · split
          · exact ⟨_, rfl⟩
          · rw [if_pos (by omega)]; exact ⟨_, rfl⟩
  · simp only [if_neg hf]
    constructor
    · rintro ⟨p, h⟩
      split at h
      · omega
      · split at h
        · omega
        · split at h
          · omega
          · cases h
    · intro h
      split
      · exact ⟨_, rfl⟩
      · split
        · exact ⟨_, rfl⟩
        · rw [if_pos (by omega)]; exact ⟨_, rfl⟩

theorem autoState_ok (a : AutoArgs) (i : AInput) : (∃ ls, autoState a i = .ok ls) ↔ i.supported := by
  rw [AInput.supported, autoState, ← shapeLayer_ok _ a.size]
  by_cases h : i.spec.type = .int ∧ i.numValues = none
  · rw [if_pos h]
    refine ⟨fun ⟨_, h⟩ => (by cases h), fun h' => ?_⟩
    have := h'.1 h.1
    rw [h.2] at this
    cases this
  · rw [if_neg h]
    have h1 : i.spec.type = .int → i.numValues.isSome := by
      intro ht
      cases hn : i.numValues with
      | none => exact absurd ⟨ht, hn⟩ h
      | some _ => rfl
    cases hs : shapeLayer i.spec a.size with
    | error e => exact ⟨fun ⟨_, h⟩ => (by cases h), fun ⟨_, _, h⟩ => (by cases h)⟩
    | ok p =>
      refine ⟨fun _ => ⟨h1, p, rfl⟩, fun _ => ?_⟩
      dsimp only
      cases i.name <;> exact ⟨_, rfl⟩

/-- The layers of an accepted state. -/
theorem autoState_eq {a : AutoArgs} {i : AInput} {ls : List ALayer} (h : autoState a i = .ok ls) :
    ∃ first layer, shapeLayer i.spec a.size = .ok (first, layer) ∧
      ls = match i.name with
        | none => stateCore a i.spec first layer
        | some n => .retrieve [n] :: stateCore a i.spec first layer ++ [.register (n ++ "-embedding")] := by
  rw [autoState] at h
  split at h
  · cases h
  · cases hs : shapeLayer i.spec a.size with
    | error e => rw [hs] at h; cases h
    | ok p =>
      rw [hs] at h
      refine ⟨p.1, p.2, rfl, ?_⟩
      dsimp only at h
      cases hn : i.name with
      | none => rw [hn] at h; injection h with h; exact h.symm
      | some n => rw [hn] at h; injection h with h; exact h.symm

/-! ### Several states -/

def embName (n : String) : String := n ++ "-embedding"

theorem embName_inj {m n : String} (h : embName m = embName n) : m = n := (String.append_left_inj _).mp h

theorem embName_ne (n : String) : embName n ≠ n := fun h => by
  have := congrArg String.length h
  rw [embName, String.length_append] at this
  have h9 : "-embedding".length = 10 := by decide
  omega

theorem nodup_map_embName {l : List String} (h : l.Nodup) : (l.map embName).Nodup := by
  induction l with
  | nil => exact .nil
  | cons a l ih =>
    rw [List.nodup_cons] at h
    rw [List.map_cons, List.nodup_cons]
    refine ⟨fun hm => ?_, ih h.2⟩
    obtain ⟨b, hb, e⟩ := List.mem_map.mp hm
    exact h.1 (embName_inj e ▸ hb)

theorem autoStates_ok (a : AutoArgs) (is : List AInput) : (∃ ls, autoStates a is = .ok ls) ↔ ∀ i ∈ is, i.supported := by
  induction is with
  | nil => exact ⟨fun _ => by simp, fun _ => ⟨_, rfl⟩⟩
  | cons i is ih =>
    rw [List.forall_mem_cons, ← ih, ← autoState_ok a, autoStates]
    cases h1 : autoState a i with
    | error e => exact ⟨fun ⟨_, h⟩ => (by cases h), fun ⟨⟨_, h⟩, _⟩ => (by cases h)⟩
    | ok l =>
      cases h2 : autoStates a is with
      | error e => exact ⟨fun ⟨_, h⟩ => (by cases h), fun ⟨_, ⟨_, h⟩⟩ => (by cases h)⟩
      | ok ls => exact ⟨fun _ => ⟨⟨_, rfl⟩, ⟨_, rfl⟩⟩, fun _ => ⟨_, rfl⟩⟩

theorem autoState_named {a : AutoArgs} (hs : 1 ≤ a.size) (hd : 1 ≤ a.depth) {p : String × ASpec × Option Nat} {ls : List ALayer}
    (h : autoState a (named p) = .ok ls) {st : AState} (h1 : st.tensors.lookup p.1 = some p.2.1) (h2 : st.tensors.lookup (embName p.1) = none) :
    chain autoLayer ls st = .ok ⟨fvec a.size, (embName p.1, fvec a.size) :: st.tensors⟩ := by
  obtain ⟨first, layer, hl, rfl⟩ := autoState_eq h
  show chain autoLayer (.retrieve [p.1] :: (stateCore a p.2.1 first layer ++ [.register (embName p.1)])) st = _
  have hr : autoLayer (.retrieve [p.1]) st = .ok ⟨p.2.1, st.tensors⟩ := by
    have : lookupAll [p.1] st.tensors = some [p.2.1] := by rw [lookupAll, h1]; rfl
    simp only [autoLayer, this]
    rw [if_neg (by simp)]
    rfl
  refine (chain_one hr).trans ((chain_append' (core_eq hs hd hl _)).trans (chain_one ?_))
  simp only [autoLayer]
  rw [h2, if_neg (by simp)]

theorem autoStates_named {a : AutoArgs} (hs : 1 ≤ a.size) (hd : 1 ≤ a.depth) (ps : List (String × ASpec × Option Nat))
    (hc : ∀ p ∈ ps, ∀ q ∈ ps, embName p.1 ≠ q.1) (hnd : (ps.map Prod.fst).Nodup) : ∀ (ls : List ALayer) (_ : autoStates a (ps.map named) = .ok ls) (st : AState)
    (_ : ∀ p ∈ ps, st.tensors.lookup p.1 = some p.2.1) (_ : ∀ p ∈ ps, st.tensors.lookup (embName p.1) = none),
    ∃ st', chain autoLayer ls st = .ok st' ∧ (∀ p ∈ ps, st'.tensors.lookup (embName p.1) = some (fvec a.size)) ∧
      ∀ k, (∀ p ∈ ps, k ≠ embName p.1) → st'.tensors.lookup k = st.tensors.lookup k := by
  induction ps with
  | nil =>
    intro ls h st _ _
    injection h with h
    subst h
    exact ⟨st, rfl, by simp, fun _ _ => rfl⟩
  | cons p ps ih =>
    intro ls h st h1 h2
    rw [List.map_cons, autoStates] at h
    cases hp : autoState a (named p) with
    | error e => rw [hp] at h; cases h
    | ok l =>
      cases hps : autoStates a (ps.map named) with
      | error e => rw [hp, hps] at h; cases h
      | ok l' =>
        rw [hp, hps] at h
        injection h with h
        subst h
        rw [List.map_cons, List.nodup_cons] at hnd
        have hne : ∀ q ∈ ps, q.1 ≠ p.1 := fun q hq e => hnd.1 (e ▸ List.mem_map_of_mem hq)
        obtain ⟨st', hst, hin, hout⟩ := ih (fun x hx y hy => hc x (by simp [hx]) y (by simp [hy])) hnd.2 l' hps
          ⟨fvec a.size, (embName p.1, fvec a.size) :: st.tensors⟩
          (fun q hq => by
            rw [List.lookup_cons, beq_eq_false_iff_ne.mpr (Ne.symm (hc p (by simp) q (by simp [hq])))]
            exact h1 q (by simp [hq]))
          (fun q hq => by
            rw [List.lookup_cons, beq_eq_false_iff_ne.mpr fun e => hne q hq (embName_inj e)]
            exact h2 q (by simp [hq]))
        refine ⟨st', (chain_append' (autoState_named hs hd hp (h1 p (by simp)) (h2 p (by simp)))).trans hst, fun q hq => ?_, fun k hk => ?_⟩
        · rcases List.mem_cons.mp hq with rfl | hq
          · rw [hout _ fun x hx e => hne x hx (embName_inj e).symm, List.lookup_cons, beq_self_eq_true]
          · exact hin q hq
        · rw [hout k fun q hq => hk q (by simp [hq]), List.lookup_cons, beq_eq_false_iff_ne.mpr (hk p (by simp))]

theorem lookupAll_same {γ : Type} {v : γ} {T : List (String × γ)} {ts : List String} (h : ∀ t ∈ ts, T.lookup t = some v) :
    lookupAll ts T = some (List.replicate ts.length v) := by
  induction ts with
  | nil => rfl
  | cons t ts ih => rw [lookupAll, h t (by simp), ih fun u hu => h u (by simp [hu])]; rfl

theorem sum_replicate (n k : Nat) : (List.replicate n k).sum = n * k := by
  induction n with
  | zero => simp
  | succ n ih => rw [List.replicate_succ, List.sum_cons, ih, Nat.succ_mul, Nat.add_comm]

theorem retrieve_eq (n k : Nat) : announceRetrieve .concat 0 ([k] :: [k] :: List.replicate n [k]) = .ok [(((n + 2) * k : Nat) : Int)] := by
  rw [announceRetrieve]
  · rw [if_pos]
    · have := concatShape_eq [] [] k (k :: List.replicate n k)
      simp only [List.map_cons, List.map_replicate, List.nil_append, List.length_nil] at this
      rw [show ((0 : Nat) : Int) = 0 from rfl] at this
      rw [this]
      have hs : (k :: k :: List.replicate n k).sum = (n + 2) * k := sum_replicate (n + 2) k
      rw [hs]
      rfl
    · rw [List.all_eq_true]
      intro x hx
      have : x = [k] := by simp at hx; rcases hx with h | h <;> simp_all
      rw [this]
      exact agreeBut_eq [] [] k k
  · simp

theorem join_eq (n k : Nat) : announceJoin (List.replicate (n + 2) (fvec k)) = .ok (fvec ((n + 2) * k)) := by
  rw [List.replicate_succ, List.replicate_succ, announceJoin, if_neg (by simp), List.map_cons, List.map_cons, List.map_replicate]
  · have h := retrieve_eq n k
    simp only [fvec] at h ⊢
    rw [h]
    rfl
  · simp

end Verif.Net
