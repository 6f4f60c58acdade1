import Verif.Obs.StateLemmas

/-!
# How long time steps wait: lemmas
-/

namespace Verif.Obs

variable {R : Type}

theorem set_entry {α : Type} {l : List (List α)} {k j : Nat} {x ts : List α} (h : (l.set k x)[j]? = some ts) : ts = x ∨ l[j]? = some ts := by
  rw [List.getElem?_set] at h
  split at h
  · split at h
    · cases h; exact Or.inl rfl
    · cases h
  · exact Or.inr h

theorem getD_some {α : Type} {l : List (List α)} {k : Nat} {P : List α → Prop} (h0 : P []) (h : ∀ ts, l[k]? = some ts → P ts) : P (l.getD k []) := by
  rw [List.getD_eq_getElem?_getD]
  cases he : l[k]? with
  | none => exact h0
  | some ts => exact h ts he

theorem loop_prompt {c : Config} : ∀ {l : List (Nat × Int × Int × R)} {st : State R}, Prompt c st → Prompt c (loop c st l).1
  | [], _, h => h
  | (k, p, t, r) :: l, st, h => by
    unfold loop
    dsimp only
    have h0 : ∀ x ∈ st.terminals.getD k [], x = 0 := getD_some (P := fun ts => ∀ x ∈ ts, x = 0) nofun (h.open_ k)
    split
    · rename_i hk
      refine loop_prompt ⟨fun b hb j ts hts => ?_, fun j ts hts x hx => ?_, h.due⟩
      · rcases set_entry hts with rfl | hts
        · unfold keeps at hk
          rw [hb, Bool.and_eq_true] at hk
          exact Or.inr (of_decide_eq_true hk.2)
        · exact h.few b hb j ts hts
      · rcases set_entry hts with rfl | hts
        · rcases List.mem_append.1 hx with hx | hx
          · exact h0 x hx
          · rw [List.mem_singleton.1 hx]; exact keeps_zero hk
        · exact h.open_ j ts hts x hx
    · rename_i hk
      have hp : Prompt c { st with terminals := st.terminals.set k [], rewards := st.rewards.set k [] } := by
        refine ⟨fun b hb j ts hts => ?_, fun j ts hts => ?_, h.due⟩
        · rcases set_entry hts with rfl | hts
          · exact Or.inl rfl
          · exact h.few b hb j ts hts
        · rcases set_entry hts with rfl | hts
          · exact nofun
          · exact h.open_ j ts hts
      split
      · exact hp
      · refine loop_prompt ⟨hp.few, hp.open_, fun s hs => ?_⟩
        rcases List.mem_append.1 hs with hs | hs
        · exact h.due s hs
        · rw [List.mem_singleton.1 hs]
          dsimp only
          by_cases ht : t = 0
          · right
            unfold keeps at hk
            rw [ht, BEq.rfl, Bool.true_and] at hk
            rcases hb : c.buffer with _ | b
            · rw [hb] at hk; exact absurd rfl hk
            · refine ⟨b, rfl, ?_⟩
              rw [hb] at hk
              have hge : ¬(st.terminals.getD k [] ++ [0]).length < b := fun hlt => hk (decide_eq_true hlt)
              have hlt : st.terminals.getD k [] = [] ∨ (st.terminals.getD k []).length < b :=
                getD_some (P := fun ts => ts = [] ∨ ts.length < b) (Or.inl rfl) (h.few b hb k)
              rw [List.length_append, List.length_singleton] at hge ⊢
              rcases hlt with hlt | hlt
              · rw [hlt, List.length_nil] at hge ⊢
                omega
              · omega
          · exact Or.inl ⟨_, t, rfl, ht⟩

theorem prompt_init (c : Config) (sent : List (Call R))
    (hs : ∀ s ∈ sent, (∃ init t, s.terminal = init ++ [t] ∧ t ≠ 0) ∨ ∃ b, c.buffer = some b ∧ s.terminal.length = max b 1) :
    Prompt c { (State.init c.interactions : State R) with sent := sent } := by
  have key : ∀ (k : Nat) ts, (State.init c.interactions : State R).terminals[k]? = some ts → ts = [] := by
    intro k ts h
    unfold State.init at h
    dsimp only at h
    rw [List.getElem?_replicate] at h
    split at h
    · cases h; rfl
    · cases h
  refine ⟨fun b _ k ts h => Or.inl (key k ts h), fun k ts h => ?_, hs⟩
  rw [key k ts h]
  exact nofun

variable [DecidableEq R] [Zero R]

theorem step_prompt {c : Config} {st : State R} (h : Prompt c st) (o : Op R) : Prompt c (step c st o) := by
  cases o with
  | act ks => exact ⟨h.few, h.open_, h.due⟩
  | observe r t p =>
    show Prompt c (observe c st r t p).1
    unfold observe
    split
    · exact h
    · split
      · exact h
      · split
        · exact h
        · dsimp only
          split
          · exact ⟨h.few, h.open_, h.due⟩
          · exact loop_prompt ⟨h.few, h.open_, h.due⟩
  | reset => exact prompt_init c st.sent h.due

theorem run_prompt (c : Config) (ops : List (Op R)) : Prompt c (run c ops) := by
  have : ∀ (ops : List (Op R)) (st : State R), Prompt c st → Prompt c (ops.foldl (step c) st) := by
    intro ops
    induction ops with
    | nil => exact fun _ h => h
    | cons o ops ih => exact fun st h => ih _ (step_prompt h o)
  exact this ops _ (prompt_init c [] nofun)

end Verif.Obs
