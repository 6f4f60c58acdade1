import Verif.Graph.Lemmas

/-! # C50: a decorated function runs the graph built for its parameters -/

namespace Verif.Props.Graph

open Verif.Graph

/-- A parameter whose key says what it is. -/
def Plain (kw : Kwargs) : Prop := ∀ e ∈ kw, ∃ v, e.2 = .plain v

/-- Whatever the history of calls: a call with parameters of plain values runs the graph built for these parameters, if the function is always called
with the same parameter names in the same order and plain values. Missing: other orders or names (`order_violation`, `name_violation`), and parameters that are modules,
functions or variables (`module_violation`, `function_violation`,
`variable_violation`, `string_violation`). -/
theorem own_graph_partial {names : List String} {history : List Kwargs} (hh : ∀ kw ∈ history, kw.map Prod.fst = names ∧ Plain kw) {kw : Kwargs}
    (hn : kw.map Prod.fst = names) (hp : Plain kw) : ∃ c', call (calls [] history) kw = some (c', kw) := by
  have hg := good_calls good_empty history
  rw [List.nil_append] at hg
  cases hc : call (calls [] history) kw with
  | none =>
    exfalso
    have hk : ∀ kw : Kwargs, Plain kw → ∃ k, graphParams kw = some k := by
      intro kw
      induction kw with
      | nil => exact fun _ => ⟨[], rfl⟩
      | cons e kw ih =>
        intro hp
        obtain ⟨k, hk⟩ := ih fun x hx => hp x (List.mem_cons_of_mem _ hx)
        obtain ⟨n, p⟩ := e
        obtain ⟨v, rfl⟩ := hp _ (List.mem_cons_self ..)
        exact ⟨v :: k, by rw [graphParams, hk]; rfl⟩
    obtain ⟨k, hk⟩ := hk kw hp
    unfold call at hc
    rw [hk] at hc
    dsimp only at hc
    split at hc <;> cases hc
  | some r =>
    obtain ⟨c', g⟩ := r
    obtain ⟨hg', k, hk, hm⟩ := hg.call hc
    have h1 := hg'.key k g hm
    have h2 := hg'.called k g hm
    have hgn : g.map Prod.fst = names ∧ Plain g := by
      rcases List.mem_append.mp h2 with h | h
      · exact hh g h
      · rw [List.mem_singleton.mp h]; exact ⟨hn, hp⟩
    have e : g.map (fun e => makeKey e.2) = kw.map fun e => makeKey e.2 := by rw [graphParams_map h1, graphParams_map hk]
    have key : ∀ (a b : Kwargs), a.map Prod.fst = b.map Prod.fst → a.map (fun e => makeKey e.2) = b.map (fun e => makeKey e.2) → Plain a → Plain b → a = b := by
      intro a
      induction a with
      | nil => intro b h _ _ _; cases b with | nil => rfl | cons => cases h
      | cons x a ih =>
        intro b h1 h2 h3 h4
        cases b with
        | nil => cases h1
        | cons y b =>
          rw [List.map_cons, List.map_cons, List.cons.injEq] at h1 h2
          rw [ih b h1.2 h2.2 (fun z hz => h3 z (List.mem_cons_of_mem _ hz)) (fun z hz => h4 z (List.mem_cons_of_mem _ hz))]
          obtain ⟨v, hv⟩ := h3 x (List.mem_cons_self ..)
          obtain ⟨w, hw⟩ := h4 y (List.mem_cons_self ..)
          obtain ⟨n, p⟩ := x
          obtain ⟨m, q⟩ := y
          cases hv; cases hw
          have h5 : n = m := h1.1
          have h6 : some v = some w := h2.1
          cases h5; cases h6; rfl
    rw [key g kw (hgn.1.trans hn.symm) e hgn.2 hp]
    exact ⟨c', rfl⟩

example : ∃ c', call (calls [] [[("deterministic", .plain (.bool true)), ("independent", .plain (.bool false))]])
    [("deterministic", .plain (.bool false)), ("independent", .plain (.bool false))] =
    some (c', [("deterministic", .plain (.bool false)), ("independent", .plain (.bool false))]) :=
  own_graph_partial (names := ["deterministic", "independent"])
    (by intro kw h; rw [List.mem_singleton.mp h]; exact ⟨rfl, by intro e he; simp at he; rcases he with rfl | rfl <;> exact ⟨_, rfl⟩⟩) rfl
    (by intro e he; simp at he; rcases he with rfl | rfl <;> exact ⟨_, rfl⟩)

/-- In any case the graph run has parameters with the same keys, and was built for this call or an earlier one. -/
theorem same_keys {history : List Kwargs} {kw g : Kwargs} {c' : Cache} (h : call (calls [] history) kw = some (c', g)) :
    graphParams g = graphParams kw ∧ (g ∈ history ∨ g = kw) := by
  have hg := good_calls good_empty history
  rw [List.nil_append] at hg
  obtain ⟨hg', k, hk, hm⟩ := hg.call h
  refine ⟨(hg'.key k g hm).trans hk.symm, ?_⟩
  rcases List.mem_append.mp (hg'.called k g hm) with h | h
  · exact .inl h
  · exact .inr (List.mem_singleton.mp h)

/-- A graph is built once only: after any further calls, a call with the same parameters leaves the cache as it is and runs the same graph. -/
theorem built_once {c c' : Cache} {kw g : Kwargs} (h : call c kw = some (c', g)) (later : List Kwargs) :
    call (calls c' later) kw = some (calls c' later, g) := by
  obtain ⟨key, hk, hf⟩ := call_find h
  exact call_found hk (find_calls hf later)

/-- No variables are the empty tuple. -/
theorem no_variables (c : Cache) (name : String) (kw : Kwargs) {c' : Cache} {g : Kwargs} (h : call c ((name, .plain (.tuple [])) :: kw) = some (c', g)) :
    call c' ((name, .variables []) :: kw) = some (c', g) := by
  obtain ⟨key, hk, hf⟩ := call_find h
  exact call_found hk hf

/-- There are no more graphs than keys that occurred. -/
theorem graphs_nodup (history : List Kwargs) : ((calls [] history).map Prod.fst).Nodup := (good_calls good_empty history).once

example : call [] [("independent", .plain (.bool true))] = some ([([.bool true], [("independent", .plain (.bool true))])], [("independent", .plain (.bool true))]) := rfl

/-! ## Violations -/

/-- The names of the parameters are not part of the key: called with other names, a function runs the graph of the first call. -/
theorem name_violation {a b : String} (v : Param) {k : PyVal} (hv : makeKey v = some k) : ∃ c', call (calls [] [[(a, v)]]) [(b, v)] = some (c', [(a, v)]) := by
  have e : ∀ s, graphParams [(s, v)] = some [k] := by intro s; simp [graphParams, hv]
  have h1 : calls [] [[(a, v)]] = [([k], [(a, v)])] := by
    rw [calls, call, e]; rfl
  rw [h1]
  exact ⟨_, by rw [call, e]; dsimp only; rw [find, if_pos (beqList_self _)]⟩

/-- In particular the order of keyword arguments matters. -/
theorem order_violation : ∃ c', call (calls [] [[("deterministic", .plain (.bool true)), ("independent", .plain (.bool false))]])
    [("independent", .plain (.bool true)), ("deterministic", .plain (.bool false))] =
    some (c', [("deterministic", .plain (.bool true)), ("independent", .plain (.bool false))]) := ⟨_, rfl⟩

/-- Of modules only the class counts … -/
theorem module_violation (name cls : String) (i j : Nat) :
    ∃ c', call (calls [] [[(name, .module i cls)]]) [(name, .module j cls)] = some (c', [(name, .module i cls)]) := by
  have h1 : calls [] [[(name, .module i cls)]] = [([.str cls], [(name, .module i cls)])] := rfl
  rw [h1]
  exact ⟨_, by rw [call]; simp only [graphParams, makeKey]; rw [find, if_pos (beqList_self _)]⟩

/-- … of functions only the name … -/
theorem function_violation (name f : String) (i j : Nat) :
    ∃ c', call (calls [] [[(name, .function i f)]]) [(name, .function j f)] = some (c', [(name, .function i f)]) := by
  have h1 : calls [] [[(name, .function i f)]] = [([.str f], [(name, .function i f)])] := rfl
  rw [h1]
  exact ⟨_, by rw [call]; simp only [graphParams, makeKey]; rw [find, if_pos (beqList_self _)]⟩

/-- … and of variables only the names. -/
theorem variable_violation (name v : String) (i j : Nat) :
    ∃ c', call (calls [] [[(name, .variables [(i, v)])]]) [(name, .variables [(j, v)])] = some (c', [(name, .variables [(i, v)])]) := by
  have h1 : calls [] [[(name, .variables [(i, v)])]] = [([.tuple [.str v]], [(name, .variables [(i, v)])])] := rfl
  rw [h1]
  exact ⟨_, by rw [call]; simp only [graphParams, makeKey, List.map_cons, List.map_nil]; rw [find, if_pos (beqList_self _)]⟩

/-- A string that is the name of a class stands for a module of this class. -/
theorem string_violation (name cls : String) (i : Nat) :
    ∃ c', call (calls [] [[(name, .module i cls)]]) [(name, .plain (.str cls))] = some (c', [(name, .module i cls)]) := by
  have h1 : calls [] [[(name, .module i cls)]] = [([.str cls], [(name, .module i cls)])] := rfl
  rw [h1]
  exact ⟨_, by rw [call]; simp only [graphParams, makeKey]; rw [find, if_pos (beqList_self _)]⟩

/-- A parameter that cannot be a key makes the call fail, whatever the cache. -/
theorem other_fails (c : Cache) (name : String) (i : Nat) (kw : Kwargs) : call c ((name, .other i) :: kw) = none := by
  rw [call, graphParams, makeKey]

end Verif.Props.Graph
