import Verif.Env.Remote

/-!
# Properties C18 and C19: remote environments
-/

namespace Verif.Props.Remote

open Verif.Env.Remote

variable {σ V : Type}

/-! ## Lock-step execution -/

/-- Sequential view of a remote connection: requests are served one after the other on the object's state. `waiting`: a
started request has been served with result `v`; `failed`: a started request has failed; `gone`: the server has ended,
the client does not know yet; `dead`: the connection is closed. -/
inductive Seq (σ V : Type) where
  | live (s : σ)
  | waiting (f : String) (s : σ) (v : Option V)
  | failed (f : String)
  | gone
  | dead

/-- A request and its answer. -/
def Seq.request (o : Obj σ V) (name : String) (kw : Option (Kwargs V)) : Seq σ V → Seq σ V × Except Unit (Option V)
  | .live s =>
    match handle o s name kw with
    | (s', .ok v) => (if name = "close" then .gone else .live s', .ok v)
    | (_, .error _) => (.dead, .error ())
  | _ => (.dead, .error ())

def Seq.close (o : Obj σ V) : Seq σ V → Seq σ V × Except Unit Unit
  | .live s | .waiting _ s _ =>
    match handle o s "close" (some []) with
    | (_, .ok _) => (.dead, .ok ())
    | (_, .error _) => (.dead, .error ())
  | _ => (.dead, .error ())

def Seq.start (o : Obj σ V) (broken : Bool) (name : String) (kw : Kwargs V) : Seq σ V → Seq σ V × Out V
  | .live s =>
    match handle o s name (some kw) with
    | (s', .ok v) => (.waiting name s' v, .done)
    | (_, .error _) => (.failed name, .done)
  | .gone => if broken then (.dead, .raised) else (.failed name, .done)
  | _ => (.dead, .raised)

def Seq.finish : Seq σ V → Seq σ V × Out V
  | .waiting _ s v => (.live s, .value v)
  | _ => (.dead, .raised)

def Seq.step (o : Obj σ V) (broken : Bool) (q : Seq σ V) : Op V → Seq σ V × Out V
  | .method name kw => let r := q.request o name (some kw); (r.1, toOut r.2)
  | .get name => let r := q.request o name none; (r.1, getOut r.2)
  | .set name v => let r := q.request o name (some [("value", v)]); (r.1, setOut r.2)
  | .close => let r := q.close o; (r.1, doneOut r.2)
  | .startReset => q.start o broken "reset" []
  | .startExecute a => q.start o broken "execute" [("actions", a)]
  | .receiveExecute => q.finish

def Seq.run (o : Obj σ V) (broken : Bool) (q : Seq σ V) : List (Op V) → List (Out V)
  | [] => []
  | p :: ps => (q.step o broken p).2 :: Seq.run o broken (q.step o broken p).1 ps

/-- No usable answer at the head of the queue. -/
def NoAnswer (q : List (Msg V)) : Prop := q = [] ∨ ∃ q', q = .fail :: q'

/-- Correspondence of the message-level and the sequential view. -/
def Rel (w : World σ V) : Seq σ V → Prop
  | .live s => w.isOpen = true ∧ w.expect = none ∧ w.server = some s ∧ w.queue = []
  | .waiting f s v => w.isOpen = true ∧ w.expect = some f ∧ w.server = some s ∧ w.queue = [.ok v] ∧
      (f = "reset" ∨ f = "execute")
  | .failed f => w.isOpen = true ∧ w.expect = some f ∧ w.server = none ∧ NoAnswer w.queue ∧
      (f = "reset" ∨ f = "execute")
  | .gone => w.isOpen = true ∧ w.expect = none ∧ w.server = none ∧ NoAnswer w.queue
  | .dead => w.isOpen = false

/-- After `close` the connection is closed, in whatever state it was. -/
theorem close_rel (o : Obj σ V) (broken : Bool) (w : World σ V) (q : Seq σ V) (h : Rel w q) :
    (w.close o broken).1.isOpen = false ∧ (q.close o).1 = .dead ∧ (w.close o broken).2 = (q.close o).2 := by
  obtain ⟨ex, op, sv, qu, lg⟩ := w
  cases q with
  | live s =>
    obtain ⟨h1, h2, h3, h4⟩ := h
    simp only at h1 h2 h3 h4
    subst h1 h2 h3 h4
    rcases hh : handle o s "close" (some []) with ⟨s', _ | v⟩ <;>
      simp [World.close, World.sendRaw, World.serve, World.receiveRaw, Seq.close, hh]
  | waiting f s v =>
    obtain ⟨h1, h2, h3, h4, _⟩ := h
    simp only at h1 h2 h3 h4
    subst h1 h2 h3 h4
    rcases hh : handle o s "close" (some []) with ⟨s', _ | v⟩ <;>
      simp [World.close, World.sendRaw, World.serve, World.receiveRaw, Seq.close, hh]
  | failed f =>
    obtain ⟨h1, h2, h3, h4, _⟩ := h
    simp only at h1 h2 h3 h4
    subst h1 h2 h3
    rcases h4 with rfl | ⟨q', rfl⟩ <;> simp [World.close, World.receiveRaw, Seq.close]
  | gone =>
    obtain ⟨h1, h2, h3, h4⟩ := h
    simp only at h1 h2 h3 h4
    subst h1 h2 h3
    rcases h4 with rfl | ⟨q', rfl⟩ <;> cases broken <;>
      simp [World.close, World.sendRaw, World.receiveRaw, Seq.close]
  | dead =>
    simp only [Rel] at h
    subst h
    cases ex <;> simp [World.close, World.sendRaw, World.receiveRaw, Seq.close]

theorem request_rel (o : Obj σ V) (broken : Bool) (w : World σ V) (q : Seq σ V) (n : String) (k : Option (Kwargs V))
    (h : Rel w q) :
    Rel (w.request o broken n k).1 (q.request o n k).1 ∧ (w.request o broken n k).2 = (q.request o n k).2 := by
  have hc := close_rel o broken w q h
  obtain ⟨ex, op, sv, qu, lg⟩ := w
  cases q with
  | live s =>
    obtain ⟨h1, h2, h3, h4⟩ := h
    simp only at h1 h2 h3 h4
    subst h1 h2 h3 h4
    rcases hh : handle o s n k with ⟨s', _ | v⟩
    · simp [World.request, World.send, World.sendRaw, World.serve, World.receive, World.receiveRaw, Seq.request, hh, Rel]
    · by_cases hn : n = "close"
      · subst hn
        simp [World.request, World.send, World.sendRaw, World.serve, World.receive, World.receiveRaw, Seq.request, hh,
          Rel, NoAnswer]
      · simp [World.request, World.send, World.sendRaw, World.serve, World.receive, World.receiveRaw, Seq.request, hh,
          Rel, hn]
  | waiting f s v =>
    obtain ⟨h1, h2, h3, h4, _⟩ := h
    simp only at h1 h2 h3 h4
    subst h1 h2 h3 h4
    simpa [World.request, World.send, Seq.request, Rel] using hc.1
  | failed f =>
    obtain ⟨h1, h2, h3, h4, _⟩ := h
    simp only at h1 h2 h3 h4
    subst h1 h2 h3
    simpa [World.request, World.send, Seq.request, Rel] using hc.1
  | gone =>
    obtain ⟨h1, h2, h3, h4⟩ := h
    simp only at h1 h2 h3 h4
    subst h1 h2 h3
    rcases h4 with rfl | ⟨q', rfl⟩ <;> cases broken <;>
      simp [World.request, World.send, World.sendRaw, World.receive, World.receiveRaw, Seq.request, Rel]
  | dead =>
    simp only [Rel] at h
    subst h
    cases ex with
    | none => simp [World.request, World.send, World.sendRaw, Seq.request, Rel]
    | some f => simpa [World.request, World.send, Seq.request, Rel] using hc.1

theorem start_rel (o : Obj σ V) (broken : Bool) (w : World σ V) (q : Seq σ V) (n : String) (k : Kwargs V)
    (hn : n = "reset" ∨ n = "execute") (h : Rel w q) :
    Rel (w.send o broken n (some k)).1 (q.start o broken n k).1 ∧
      doneOut (w.send o broken n (some k)).2 = (q.start o broken n k).2 := by
  have hc := close_rel o broken w q h
  have hn' : n ≠ "close" := by rcases hn with rfl | rfl <;> decide
  obtain ⟨ex, op, sv, qu, lg⟩ := w
  cases q with
  | live s =>
    obtain ⟨h1, h2, h3, h4⟩ := h
    simp only at h1 h2 h3 h4
    subst h1 h2 h3 h4
    rcases hh : handle o s n (some k) with ⟨s', _ | v⟩ <;>
      simp [World.send, World.sendRaw, World.serve, Seq.start, hh, Rel, hn', hn, NoAnswer, doneOut]
  | waiting f s v =>
    obtain ⟨h1, h2, h3, h4, _⟩ := h
    simp only at h1 h2 h3 h4
    subst h1 h2 h3 h4
    simpa [World.send, Seq.start, Rel, doneOut] using hc.1
  | failed f =>
    obtain ⟨h1, h2, h3, h4, _⟩ := h
    simp only at h1 h2 h3 h4
    subst h1 h2 h3
    simpa [World.send, Seq.start, Rel, doneOut] using hc.1
  | gone =>
    obtain ⟨h1, h2, h3, h4⟩ := h
    simp only at h1 h2 h3 h4
    subst h1 h2 h3
    cases broken <;> simp [World.send, World.sendRaw, Seq.start, Rel, h4, hn, doneOut]
  | dead =>
    simp only [Rel] at h
    subst h
    cases ex with
    | none => simp [World.send, World.sendRaw, Seq.start, Rel, doneOut]
    | some f => simpa [World.send, Seq.start, Rel, doneOut] using hc.1

theorem finish_rel (o : Obj σ V) (broken : Bool) (w : World σ V) (q : Seq σ V) (h : Rel w q) :
    Rel (w.step o broken .receiveExecute).1 q.finish.1 ∧ (w.step o broken .receiveExecute).2 = q.finish.2 := by
  have hc := close_rel o broken w q h
  obtain ⟨ex, op, sv, qu, lg⟩ := w
  cases q with
  | live s =>
    obtain ⟨h1, h2, h3, h4⟩ := h
    simp only at h1 h2 h3 h4
    subst h1 h2 h3 h4
    simpa [World.step, World.receive, Seq.finish, Rel, toOut] using hc.1
  | waiting f s v =>
    obtain ⟨h1, h2, h3, h4, hf⟩ := h
    simp only at h1 h2 h3 h4
    subst h1 h2 h3 h4
    rcases hf with rfl | rfl <;> simp [World.step, World.receive, World.receiveRaw, Seq.finish, Rel, toOut]
  | failed f =>
    obtain ⟨h1, h2, h3, h4, hf⟩ := h
    simp only at h1 h2 h3 h4
    subst h1 h2 h3
    rcases hf with rfl | rfl <;> rcases h4 with rfl | ⟨q', rfl⟩ <;>
      simp [World.step, World.receive, World.receiveRaw, Seq.finish, Rel, toOut]
  | gone =>
    obtain ⟨h1, h2, h3, h4⟩ := h
    simp only at h1 h2 h3 h4
    subst h1 h2 h3
    simpa [World.step, World.receive, Seq.finish, Rel, toOut] using hc.1
  | dead =>
    simp only [Rel] at h
    subst h
    by_cases h1 : ex = some "reset"
    · subst h1; simp [World.step, World.receive, World.receiveRaw, Seq.finish, Rel, toOut]
    · by_cases h2 : ex = some "execute"
      · subst h2; simp [World.step, World.receive, World.receiveRaw, Seq.finish, Rel, toOut]
      · simpa [World.step, World.receive, Seq.finish, Rel, toOut, h1, h2] using hc.1

theorem step_rel (o : Obj σ V) (broken : Bool) (w : World σ V) (q : Seq σ V) (p : Op V) (h : Rel w q) :
    Rel (w.step o broken p).1 (q.step o broken p).1 ∧ (w.step o broken p).2 = (q.step o broken p).2 := by
  cases p with
  | method n k =>
    have := request_rel o broken w q n (some k) h
    exact ⟨this.1, by simp only [World.step, Seq.step, this.2]⟩
  | get n =>
    have := request_rel o broken w q n none h
    exact ⟨this.1, by simp only [World.step, Seq.step, this.2]⟩
  | set n v =>
    have := request_rel o broken w q n (some [("value", v)]) h
    exact ⟨this.1, by simp only [World.step, Seq.step, this.2]⟩
  | close =>
    obtain ⟨h1, h2, h3⟩ := close_rel o broken w q h
    refine ⟨?_, by simp only [World.step, Seq.step, h3]⟩
    simp only [World.step, Seq.step, h2]
    exact h1
  | startReset => exact start_rel o broken w q "reset" [] (Or.inl rfl) h
  | startExecute a => exact start_rel o broken w q "execute" [("actions", a)] (Or.inr rfl) h
  | receiveExecute => exact finish_rel o broken w q h

theorem run_rel (o : Obj σ V) (broken : Bool) (ops : List (Op V)) (w : World σ V) (q : Seq σ V) (h : Rel w q) :
    w.run o broken ops = q.run o broken ops := by
  induction ops generalizing w q with
  | nil => rfl
  | cons p ops ih =>
    have := step_rel o broken w q p h
    simp only [World.run, Seq.run]
    rw [this.2, ih _ _ this.1]

/-- The connection at the start: `none` if the remote environment could not be created. -/
def Seq.init : Option σ → Seq σ V
  | some s => .live s
  | none => .gone

/-- **C18, protocol level, unconditional**: for every remote object (which may fail anywhere, even on creation) and every
sequence of client operations, what the client sees is the requests served one after the other; no answer is lost,
duplicated or attributed to another request. -/
theorem remote_lockstep (o : Obj σ V) (broken : Bool) (s : Option σ) (ops : List (Op V)) :
    (World.init s : World σ V).run o broken ops = (Seq.init s).run o broken ops := by
  apply run_rel
  cases s with
  | none => exact ⟨rfl, rfl, rfl, Or.inr ⟨_, rfl⟩⟩
  | some s => exact ⟨rfl, rfl, rfl, rfl⟩

/-- The requests the remote object serves because of an operation: the request itself on an idle connection; the closing
of the environment when an operation does not fit (an answer is outstanding, or none is); nothing once it has ended. -/
def Seq.serves : Seq σ V → Op V → List (String × Option (Kwargs V))
  | .live _, .method n kw => [(n, some kw)]
  | .live _, .get n => [(n, none)]
  | .live _, .set n v => [(n, some [("value", v)])]
  | .live _, .startReset => [("reset", some [])]
  | .live _, .startExecute a => [("execute", some [("actions", a)])]
  | .live _, .close | .live _, .receiveExecute => [("close", some [])]
  | .waiting _ _ _, .receiveExecute => []
  | .waiting _ _ _, _ => [("close", some [])]
  | _, _ => []

def Seq.allServed (o : Obj σ V) (broken : Bool) (q : Seq σ V) : List (Op V) → List (String × Option (Kwargs V))
  | [] => []
  | p :: ps => q.serves p ++ Seq.allServed o broken (q.step o broken p).1 ps

theorem step_serves (o : Obj σ V) (broken : Bool) (w : World σ V) (q : Seq σ V) (p : Op V) (h : Rel w q) :
    (w.step o broken p).1.served = w.served ++ q.serves p := by
  obtain ⟨ex, op, sv, qu, lg⟩ := w
  cases q with
  | live s =>
    obtain ⟨h1, h2, h3, h4⟩ := h
    simp only at h1 h2 h3 h4
    subst h1 h2 h3 h4
    cases p <;> simp only [World.step, World.request, World.send, World.sendRaw, World.serve, World.close,
      World.receive, World.receiveRaw, Seq.serves, Option.isSome_none] <;> grind
  | waiting f s v =>
    obtain ⟨h1, h2, h3, h4, hf⟩ := h
    simp only at h1 h2 h3 h4
    subst h1 h2 h3 h4
    cases p <;> simp only [World.step, World.request, World.send, World.sendRaw, World.serve, World.close,
      World.receive, World.receiveRaw, Seq.serves, Option.isSome_some] <;> grind
  | failed f =>
    obtain ⟨h1, h2, h3, h4, hf⟩ := h
    simp only at h1 h2 h3 h4
    subst h1 h2 h3
    rcases h4 with rfl | ⟨q', rfl⟩ <;>
    cases p <;> simp only [World.step, World.request, World.send, World.sendRaw, World.serve, World.close,
      World.receive, World.receiveRaw, Seq.serves, Option.isSome_some] <;> grind
  | gone =>
    obtain ⟨h1, h2, h3, h4⟩ := h
    simp only at h1 h2 h3 h4
    subst h1 h2 h3
    rcases h4 with rfl | ⟨q', rfl⟩ <;> cases broken <;>
    cases p <;> simp [World.step, World.request, World.send, World.sendRaw, World.close,
      World.receive, World.receiveRaw, Seq.serves]
  | dead =>
    simp only [Rel] at h
    subst h
    cases ex <;>
    cases p <;> simp only [World.step, World.request, World.send, World.sendRaw, World.close,
      World.receive, World.receiveRaw, Seq.serves] <;> grind

/-- **C18, unconditional**: what the remote object is asked to do. Every accepted operation reaches it exactly once, in
order; an operation out of turn closes the environment, once, and nothing reaches it afterwards. -/
theorem remote_serves (o : Obj σ V) (broken : Bool) (s : Option σ) (ops : List (Op V)) :
    ((World.init s : World σ V).after o broken ops).served = (Seq.init s).allServed o broken ops := by
  have key : ∀ (w : World σ V) (q : Seq σ V), Rel w q →
      (w.after o broken ops).served = w.served ++ q.allServed o broken ops := by
    induction ops with
    | nil => intro w q _; simp [World.after, Seq.allServed]
    | cons p ops ih =>
      intro w q h
      have h1 := ih _ _ (step_rel o broken w q p h).1
      rw [step_serves o broken w q p h, List.append_assoc] at h1
      exact h1
  have h0 : (World.init s : World σ V).served = [] := by cases s <;> rfl
  rw [key _ (Seq.init s) _, h0, List.nil_append]
  cases s with
  | none => exact ⟨rfl, rfl, rfl, Or.inr ⟨_, rfl⟩⟩
  | some s => exact ⟨rfl, rfl, rfl, rfl⟩

theorem dead_run (o : Obj σ V) (broken : Bool) (ops : List (Op V)) :
    (Seq.dead : Seq σ V).run o broken ops = ops.map fun _ => .raised := by
  induction ops with
  | nil => rfl
  | cons p ops ih =>
    cases p <;> simp only [Seq.run, Seq.step, Seq.request, Seq.close, Seq.start, Seq.finish, toOut, getOut, setOut,
      doneOut, ih, List.map_cons]

/-- **C18**: a failure surfaces as an exception and every later operation raises; no stale answer is ever returned.
(Exception: `set` on a callable attribute raises in the client only, see `setting_calls_violation`.) -/
theorem failure_is_final (o : Obj σ V) (broken : Bool) (s : Option σ) (ops later : List (Op V)) (p : Op V)
    (hp : ∀ n v, p ≠ .set n v)
    (hfail : ((World.init s : World σ V).run o broken (ops ++ [p])).getLast? = some .raised) :
    ((World.init s : World σ V).run o broken (ops ++ [p] ++ later)).drop (ops.length + 1) =
      later.map fun _ => .raised := by
  rw [remote_lockstep] at hfail ⊢
  generalize (Seq.init s : Seq σ V) = q at hfail ⊢
  induction ops generalizing q with
  | nil =>
    simp only [List.nil_append, Seq.run, List.getLast?_singleton, Option.some.injEq] at hfail
    simp only [List.nil_append, List.singleton_append, Seq.run, List.length_nil, Nat.zero_add, List.drop_succ_cons,
      List.drop_zero]
    have : (q.step o broken p).1 = .dead := by
      cases p with
      | method n k =>
        simp only [Seq.step, Seq.request] at hfail ⊢
        repeat' split
        all_goals simp_all [toOut]
      | get n =>
        simp only [Seq.step, Seq.request] at hfail ⊢
        split
        · split
          · rename_i v hh
            simp only [hh] at hfail
            cases v <;> simp [getOut] at hfail
          · rfl
        · rfl
      | set n v => exact absurd rfl (hp n v)
      | close =>
        simp only [Seq.step, Seq.close]
        repeat' split
        all_goals rfl
      | startReset =>
        simp only [Seq.step, Seq.start] at hfail ⊢
        repeat' split
        all_goals simp_all
      | startExecute a =>
        simp only [Seq.step, Seq.start] at hfail ⊢
        repeat' split
        all_goals simp_all
      | receiveExecute =>
        simp only [Seq.step, Seq.finish] at hfail ⊢
        repeat' split
        all_goals simp_all
    rw [this, dead_run]
  | cons r ops ih =>
    simp only [List.cons_append, Seq.run, List.length_cons, List.drop_succ_cons] at hfail ⊢
    apply ih
    rw [List.getLast?_cons] at hfail
    cases hl : (Seq.run o broken (q.step o broken r).1 (ops ++ [p])).getLast? with
    | none =>
      exfalso
      rw [List.getLast?_eq_none_iff] at hl
      cases ops <;> simp [Seq.run] at hl
    | some x => rw [hl] at hfail; simpa using hfail

/-! ## Comparison with direct calls -/

/-- The same operations on the object itself; after an exception nothing more can be done. -/
def direct (o : Obj σ V) : Option σ → Op V → Option σ × Out V
  | some s, .method n kw =>
    match o.call s n kw with
    | (s', .ok v) => (some s', .value v)
    | (_, .error _) => (none, .raised)
  | some s, .get n =>
    match o.attr s n with
    | some (.value v) => (some s, .value v)
    | some .callable => (some s, .function)
    | none => (none, .raised)
  | some s, .set n v =>
    match o.set s n v with
    | (s', .ok _) => (some s', .done)
    | (_, .error _) => (none, .raised)
  | _, _ => (none, .raised)

/-- Operations for which the remote access is transparent: called names are methods, and an `AttributeError` is not
raised inside a call with the single argument `value`; read attributes are not `None`; written attributes are not
methods and writing does not raise `AttributeError`. -/
def Regular (o : Obj σ V) (s : σ) : Op V → Prop
  | .method n kw => n ≠ "close" ∧ o.attr s n = some .callable ∧
      (∀ x, kw = [("value", x)] → (o.call s n kw).2 ≠ .error .attributeError)
  | .get n => n ≠ "close" ∧ o.attr s n ≠ some (.value none)
  | .set n v => n ≠ "close" ∧ o.attr s n ≠ some .callable ∧ (o.set s n v).2 ≠ .error .attributeError
  | _ => False

/-- All operations of a history are regular in the state they meet. -/
def RegularRun (o : Obj σ V) : Option σ → List (Op V) → Prop
  | _, [] => True
  | none, _ :: _ => True
  | some s, p :: ps => Regular o s p ∧ RegularRun o (direct o (some s) p).1 ps

def directRun (o : Obj σ V) (s : Option σ) : List (Op V) → List (Out V)
  | [] => []
  | p :: ps => (direct o s p).2 :: directRun o (direct o s p).1 ps

/-- Live or dead. -/
def Seq.ofState : Option σ → Seq σ V
  | some s => .live s
  | none => .dead

theorem step_direct (o : Obj σ V) (broken : Bool) (s : σ) (p : Op V) (h : Regular o s p) :
    (Seq.live s : Seq σ V).step o broken p = (Seq.ofState (direct o (some s) p).1, (direct o (some s) p).2) := by
  cases p with
  | method n kw =>
    obtain ⟨h1, h2, h3⟩ := h
    simp only [Seq.step, Seq.request, handle, h2, direct]
    rcases hc : o.call s n kw with ⟨s', e | v⟩
    · cases e with
      | other => simp [Seq.ofState, toOut]
      | attributeError =>
        have hf : fallback o s' n (some kw) = (s', .error .other) := by
          unfold fallback
          split
          · rename_i k x hk
            rw [Option.some.injEq] at hk
            subst hk
            rw [if_neg]
            rintro rfl
            exact h3 x rfl (by rw [hc])
          · rfl
        simp [hf, Seq.ofState, toOut]
    · simp [Seq.ofState, toOut, h1]
  | get n =>
    obtain ⟨h1, h2⟩ := h
    simp only [Seq.step, Seq.request, handle, direct]
    cases ha : o.attr s n with
    | none => simp [fallback, Seq.ofState, getOut]
    | some a =>
      cases a with
      | callable => simp [Seq.ofState, getOut, h1]
      | value v =>
        cases v with
        | none => exact absurd ha h2
        | some v => simp [Seq.ofState, getOut, h1]
  | set n v =>
    obtain ⟨h1, h2, h3⟩ := h
    simp only [Seq.step, Seq.request, handle, direct]
    cases ha : o.attr s n with
    | none =>
      rcases hs : o.set s n v with ⟨s', e | u⟩ <;> simp [fallback, setResult, hs, Seq.ofState, setOut, h1]
    | some a =>
      cases a with
      | callable => exact absurd ha h2
      | value w =>
        rcases hs : o.set s n v with ⟨s', e | u⟩
        · cases e with
          | attributeError => rw [hs] at h3; exact absurd rfl h3
          | other => simp [setResult, hs, Seq.ofState, setOut]
        · simp [setResult, hs, Seq.ofState, setOut, h1]
  | close => exact h.elim
  | startReset => exact h.elim
  | startExecute a => exact h.elim
  | receiveExecute => exact h.elim

theorem dead_direct (o : Obj σ V) (ops : List (Op V)) : directRun o none ops = ops.map fun _ => .raised := by
  induction ops with
  | nil => rfl
  | cons p ops ih => simp [directRun, direct, ih]

/-- **C18, partial**: on every history of regular operations, remote access gives the results (and exceptions) of the
same operations on the object itself, in order. Missing: the irregular operations, see the violations. -/
theorem remote_eq_direct_partial (o : Obj σ V) (broken : Bool) (s : σ) (ops : List (Op V))
    (h : RegularRun o (some s) ops) : (World.init (some s) : World σ V).run o broken ops = directRun o (some s) ops := by
  rw [remote_lockstep]
  show (Seq.live s : Seq σ V).run o broken ops = _
  induction ops generalizing s with
  | nil => rfl
  | cons p ops ih =>
    obtain ⟨h1, h2⟩ := h
    simp only [Seq.run, directRun, step_direct o broken s p h1]
    cases hd : (direct o (some s) p).1 with
    | none => simp only [Seq.ofState]; rw [dead_run, dead_direct]
    | some s' => rw [hd] at h2; simp only [Seq.ofState]; rw [ih s' h2]

/-- **C18**, blocking start/receive: the pair gives the result of the method call. -/
theorem blocking_pair (o : Obj σ V) (broken : Bool) (s : σ) (a : V) :
    ((World.init (some s) : World σ V).run o broken [.startExecute a, .receiveExecute]).getLast? =
      ((World.init (some s) : World σ V).run o broken [.method "execute" [("actions", a)]]).getLast? ∧
    ((World.init (some s) : World σ V).run o broken [.startReset, .receiveExecute]).getLast? =
      ((World.init (some s) : World σ V).run o broken [.method "reset" []]).getLast? := by
  rw [remote_lockstep, remote_lockstep, remote_lockstep, remote_lockstep]
  constructor
  · rcases hh : handle o s "execute" (some [("actions", a)]) with ⟨s', e | v⟩ <;>
      simp [Seq.init, Seq.run, Seq.step, Seq.start, Seq.finish, Seq.request, hh, toOut]
  · rcases hh : handle o s "reset" (some []) with ⟨s', e | v⟩ <;>
      simp [Seq.init, Seq.run, Seq.step, Seq.start, Seq.finish, Seq.request, hh, toOut]

/-! ## Violations -/

/-- Example object: `level` is a method that raises `AttributeError` inside, `step` returns a counter, `seed` is an
attribute that is `None`; `boom` raises. Attributes can be written. -/
def exObj : Obj (Nat × Bool) Nat :=
  { attr := fun s n => if n = "level" then (if s.2 then some (.value (some s.1)) else some .callable)
      else if n = "step" ∨ n = "boom" ∨ n = "execute" then some .callable
      else if n = "seed" then some (.value none) else none
    call := fun s n _ => if n = "level" then (s, .error .attributeError) else if n = "boom" then (s, .error .other)
      else ((s.1 + 1, s.2), .ok (some s.1))
    set := fun s n x => if n = "level" then ((x, true), .ok ()) else (s, .ok ()) }

/-- **C18 fails (failure swallowed)**: a method called with the single keyword `value` that raises `AttributeError`
inside is reported as success, and the method is overwritten by the value. -/
theorem attribute_error_swallowed_violation :
    (World.init (some (5, false)) : World _ _).run exObj false [.method "level" [("value", 3)], .get "level"] =
      [.value none, .value (some 3)] ∧ (exObj.call (5, false) "level" [("value", 3)]).2 = .error .attributeError :=
  ⟨by decide, rfl⟩

/-- **C18 fails (`None` attribute)**: reading an attribute that is `None` gives a function. -/
theorem none_attribute_violation :
    (World.init (some (5, false)) : World _ _).run exObj false [.get "seed"] = [.function] ∧
      exObj.attr (5, false) "seed" = some (.value none) := by decide

/-- **C18 fails (writing a method name)**: assigning to the name of a method calls the method. -/
theorem setting_calls_violation :
    (World.init (some (5, false)) : World _ _).run exObj false [.set "step" 1, .method "step" []] =
      [.raised, .value (some 6)] := by decide

-- non-vacuity: results in order, failure, everything raises afterwards
example : (World.init (some (5, false)) : World _ _).run exObj true
    [.method "step" [], .method "step" [("x", 1)], .get "step", .method "boom" [], .method "step" [], .get "seed"] =
      [.value (some 5), .value (some 6), .function, .raised, .raised, .raised] := by decide

example : ((World.init (some (5, false)) : World _ _).after exObj true
    [.method "step" [], .receiveExecute, .method "step" [], .close]).served =
      [("step", some []), ("close", some [])] := by decide

example : RegularRun exObj (some (5, false)) [.method "step" [], .get "step", .set "level2" 1, .method "boom" []] := by
  simp [RegularRun, Regular, direct, exObj]

/-! ## Non-blocking execution -/

/-- **C19, partial**: a started call that succeeds remotely is reported as pending until its thread has ended, and then
its result is returned. Missing: calls that fail, see the violation. -/
theorem nonblocking_success_partial (o : Obj σ V) (broken : Bool) (t : Thread σ V) (name : String) (kw : Kwargs V)
    (w : World σ V) (v : Option V) (polls ticks : Nat)
    (ht : t.thread = some (name, kw)) (hd : t.died = false)
    (hok : t.world.request o broken name (some kw) = (w, .ok v)) :
    t.run o broken (List.replicate polls .poll ++ .tick :: (List.replicate ticks .tick ++ [.poll])) =
      List.replicate polls .nothing ++ .internal :: (List.replicate ticks .internal ++ [.result v]) := by
  have hf : t.finish o broken = { world := w, thread := none, died := false, observation := some v } := by
    simp only [Thread.finish, ht, hd, hok, Bool.false_eq_true, if_false]
  induction polls with
  | zero =>
    simp only [List.replicate_zero, List.nil_append, Thread.run, Thread.step, hf]
    congr 1
    induction ticks with
    | zero => simp [Thread.run, Thread.step]
    | succ n ih =>
      simp only [List.replicate_succ, List.cons_append, Thread.run, Thread.step]
      rw [← ih]
      rfl
  | succ n ih =>
    simp only [List.replicate_succ, List.cons_append, Thread.run, Thread.step, ht, Option.isSome_some, if_true]
    rw [← ih]

/-- What the caller sees while nothing is reported. -/
def reaction : TOp V → TOut V
  | .tick => .internal
  | _ => .nothing

/-- **C19 fails**: a started call that fails remotely is never reported: however often the caller polls, and however
long it waits, `receive_execute` keeps answering "not ready". -/
theorem failure_never_reported_violation (o : Obj σ V) (broken : Bool) (t : Thread σ V) (name : String)
    (kw : Kwargs V) (ht : t.thread = some (name, kw))
    (hfail : t.died = true ∨ (t.world.request o broken name (some kw)).2 = .error ())
    (ops : List (TOp V)) (hops : ∀ p ∈ ops, p = .poll ∨ p = .tick) :
    t.run o broken ops = ops.map reaction := by
  induction ops generalizing t with
  | nil => rfl
  | cons p ops ih =>
    have hrest : ∀ q ∈ ops, q = .poll ∨ q = .tick := fun q hq => hops q (by simp [hq])
    rcases hops p (by simp) with rfl | rfl
    · simp only [Thread.run, Thread.step, ht, Option.isSome_some, if_true, List.map_cons]
      rw [ih t ht hfail hrest]
      rfl
    · simp only [Thread.run, Thread.step, List.map_cons, reaction]
      congr 1
      have hfin : (t.finish o broken).thread = some (name, kw) ∧ (t.finish o broken).died = true := by
        simp only [Thread.finish, ht]
        rcases hd : t.died with _ | _
        · rcases hfail with h | h
          · rw [hd] at h; simp at h
          · rcases hr : t.world.request o broken name (some kw) with ⟨w, e | v⟩
            · simp [ht]
            · rw [hr] at h; simp at h
        · simp [ht, hd]
      exact ih _ hfin.1 (Or.inl hfin.2) hrest

-- non-vacuity: a failing `boom`, and a succeeding `execute`
example : (Thread.mk (World.init (some (5, false))) none false none : Thread (Nat × Bool) Nat).run exObj false
    [.startExecute 3, .poll, .tick, .poll, .poll, .startReset, .tick, .poll, .poll, .startExecute 3] =
    [.started, .nothing, .internal, .result (some 5), .raised, .started, .internal, .nothing, .nothing, .raised] := by
  decide

end Verif.Props.Remote
