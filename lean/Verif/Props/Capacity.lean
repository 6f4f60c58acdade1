import Verif.Construct.CapacityLemmas
import Verif.Props.Memory

/-!
# Property C108: the memory is large enough for the updates

* `capacity_timesteps`, `capacity_episodes_partial`: which capacities are accepted, and the default,
* `timesteps_retrieved_partial`, `episodes_retrieved`: accepted capacities are enough for full batches,
* `small_violation`, `small_capacity_violation`: with buffered timesteps and unlimited episodes the default is too small for a batch of episodes,
* `unlimited_violation`: without limit for episodes no capacity can be given,
* `horizon_violation`: episodes as horizon and unlimited episodes fail with a Python error.
-/

namespace Verif.Props.Capacity

open Verif.Construct

/-- C108: for updates with timesteps, exactly the capacities which meet all needs are accepted, and the default is the smallest
one. Batch size and horizon need an upper bound. -/
theorem capacity_timesteps (batch : Bounds Int) (horizon : Horizon) (max : Option Int) (past : Int) (buffer : Buffer)
    (given : Option Int) (c : Int) :
    memoryCapacity "timesteps" batch horizon max past buffer given = .ok c ↔
      ∃ b h, batch.hi = some b ∧ horizonMax horizon max = some h ∧ Chosen (timestepNeeds b past h max buffer) given c := by
  have key : ∀ b h, batch.hi = some b → horizonMax horizon max = some h →
      ∃ m, minCapacity "timesteps" batch horizon max past buffer = .ok (some m) ∧
        m ∈ timestepNeeds b past h max buffer ∧ ∀ x ∈ timestepNeeds b past h max buffer, x ≤ m := by
    intro b h hb hh
    have h1 : minCapacity "timesteps" batch horizon max past buffer =
        (match buffer with
        | .episode =>
          match max with
          | some m => .ok (some (Max.max (Max.max (b + 1 + past + h) m) (2 * m)))
          | none => .ok (some (b + 1 + past + h))
        | .steps n =>
          match max with
          | some m => .ok (some (Max.max (Max.max (b + 1 + past + h) m) (2 * n)))
          | none => .ok (some (Max.max (b + 1 + past + h) (2 * n)))) := by
      unfold minCapacity
      rw [hb]
      cases horizon with
      | episode =>
        unfold horizonMax at hh
        dsimp only at hh
        subst hh
        cases buffer <;> rfl
      | steps p =>
        unfold horizonMax at hh
        dsimp only at hh
        rw [if_pos rfl]
        dsimp only
        rw [hh]
        cases buffer <;> cases max <;> rfl
    rw [h1]
    unfold timestepNeeds bufferNeeds
    cases buffer <;> cases max <;>
      refine ⟨_, rfl, ?_, ?_⟩ <;>
      simp only [Option.toList_none, Option.toList_some, Option.map_none, Option.map_some, List.append_nil, List.mem_append, List.mem_singleton,
        List.cons_append, List.nil_append, List.mem_cons, List.not_mem_nil, or_false] <;> omega
  unfold memoryCapacity
  rw [bind_ok]
  constructor
  · rintro ⟨m, hm, hc⟩
    have hb : ∃ b, batch.hi = some b := by
      cases hb : batch.hi with
      | some b => exact ⟨b, rfl⟩
      | none => unfold minCapacity at hm; rw [hb] at hm; cases hm
    obtain ⟨b, hb⟩ := hb
    have hh : ∃ h, horizonMax horizon max = some h := by
      cases hh : horizonMax horizon max with
      | some h => exact ⟨h, rfl⟩
      | none =>
        unfold minCapacity at hm
        rw [hb] at hm
        cases horizon with
        | episode =>
          have hh : max = none := hh
          subst hh
          cases hm
        | steps p =>
          have hh : p.bounds.hi = none := hh
          rw [if_pos rfl] at hm
          dsimp only at hm
          rw [hh] at hm
          cases hm
    obtain ⟨h, hh⟩ := hh
    obtain ⟨m', e, h1, h2⟩ := key b h hb hh
    rw [e] at hm
    cases hm
    obtain ⟨g1, g2, g3⟩ := (capacityOf_ok ..).mp hc
    exact ⟨b, h, hb, hh, fun x hx => Int.le_trans (h2 x hx) g1, g2, fun e => by rw [g3 e]; exact h1⟩
  · rintro ⟨b, h, hb, hh, h3, h4, h5⟩
    obtain ⟨m, e, h1, h2⟩ := key b h hb hh
    refine ⟨some m, e, (capacityOf_ok ..).mpr ⟨h3 m h1, h4, fun e => ?_⟩⟩
    have := h2 c (h5 e)
    have := h3 m h1
    omega

example : memoryCapacity "timesteps" ⟨some 8, some 8⟩ .episode (some 10) 2 .episode none = .ok 21 := rfl

/-- C108, partial: for updates with episodes of limited length, exactly the capacities which meet all needs are accepted, and the
default is the smallest one.  Missing: unlimited episodes (`small_violation`, `unlimited_violation`). -/
theorem capacity_episodes_partial (batch : Bounds Int) (horizon : Horizon) (max : Int) (past : Int) (buffer : Buffer)
    (given : Option Int) (c : Int) :
    memoryCapacity "episodes" batch horizon (some max) past buffer given = .ok c ↔
      ∃ b, batch.hi = some b ∧ Chosen (episodeNeeds b (some max) buffer) given c := by
  have key : ∀ b, batch.hi = some b →
      ∃ m, minCapacity "episodes" batch horizon (some max) past buffer = .ok (some m) ∧
        m ∈ episodeNeeds b (some max) buffer ∧ ∀ x ∈ episodeNeeds b (some max) buffer, x ≤ m := by
    intro b hb
    have h1 : minCapacity "episodes" batch horizon (some max) past buffer =
        (match buffer with
        | .episode => .ok (some (Max.max ((b + 1) * max) (2 * max)))
        | .steps n => .ok (some (Max.max ((b + 1) * max) (2 * n)))) := by
      unfold minCapacity
      rw [if_neg (by decide), if_pos rfl]
      dsimp only
      rw [hb]
      cases buffer <;> rfl
    rw [h1]
    unfold episodeNeeds bufferNeeds
    cases buffer <;>
      refine ⟨_, rfl, ?_, ?_⟩ <;>
      simp only [Option.toList_some, Option.map_some, List.append_nil, List.mem_append, List.mem_singleton,
        List.cons_append, List.nil_append, List.mem_cons, List.not_mem_nil, or_false] <;> omega
  unfold memoryCapacity
  rw [bind_ok]
  constructor
  · rintro ⟨m, hm, hc⟩
    have hb : ∃ b, batch.hi = some b := by
      cases hb : batch.hi with
      | some b => exact ⟨b, rfl⟩
      | none =>
        unfold minCapacity at hm
        rw [if_neg (by decide), if_pos rfl, hb] at hm
        cases hm
    obtain ⟨b, hb⟩ := hb
    obtain ⟨m', e, h1, h2⟩ := key b hb
    rw [e] at hm
    cases hm
    obtain ⟨g1, g2, g3⟩ := (capacityOf_ok ..).mp hc
    exact ⟨b, hb, fun x hx => Int.le_trans (h2 x hx) g1, g2, fun e => by rw [g3 e]; exact h1⟩
  · rintro ⟨b, hb, h3, h4, h5⟩
    obtain ⟨m, e, h1, h2⟩ := key b hb
    refine ⟨some m, e, (capacityOf_ok ..).mpr ⟨h3 m h1, h4, fun e => ?_⟩⟩
    have := h2 c (h5 e)
    have := h3 m h1
    omega

example : memoryCapacity "episodes" ⟨some 8, some 8⟩ .episode (some 10) 2 .episode (some 100) = .ok 100 := rfl

/-- C108, violated: if episodes are unlimited and observations are buffered in timesteps, a capacity of two is chosen for batches
of any number of episodes. -/
theorem small_violation (batch : Bounds Int) (horizon : Horizon) (past : Int) :
    memoryCapacity "episodes" batch horizon none past (.steps 1) none = .ok 2 := rfl

/-- C108, violated: a memory with this capacity never has two episodes to retrieve. -/
theorem small_capacity_violation {α : Type} (items : List (Memory.Step α)) : (Memory.retrievable 2 items).length ≤ 1 := by
  unfold Memory.retrievable
  rw [List.length_reverse]
  generalize he : (Memory.episodes items).reverse = es
  have hne : ∀ e ∈ es, e ≠ [] := by
    intro e h
    rw [← he] at h
    have := Memory.splitEps_episode items e (List.mem_reverse.mp h)
    intro e0
    subst e0
    simp_all
  match es with
  | [] => exact Nat.zero_le _
  | [e] => unfold Memory.fitNewest; split <;> simp [Memory.fitNewest]
  | e :: e' :: r =>
    have h1 := List.length_pos_iff.mpr (hne e (by simp))
    have h2 := List.length_pos_iff.mpr (hne e' (by simp))
    unfold Memory.fitNewest
    split
    · unfold Memory.fitNewest
      rw [if_neg (by omega)]
      simp
    · simp

/-- C108, violated: for batches of unlimited episodes no capacity is known, so one has to be given, but then there is a Python
error for each of them. -/
theorem unlimited_violation (batch : Bounds Int) (horizon : Horizon) (past : Int) :
    memoryCapacity "episodes" batch horizon none past .episode none = .error (.required "capacity") ∧
    ∀ c, memoryCapacity "episodes" batch horizon none past .episode (some c) = .error .type := ⟨rfl, fun _ => rfl⟩

/-- C108, violated: batches of timesteps with returns of whole unlimited episodes fail with a Python error, also if a capacity is
given. -/
theorem horizon_violation (b : Int) (lo : Option Int) (past : Int) (buffer : Buffer) (given : Option Int) :
    memoryCapacity "timesteps" ⟨lo, some b⟩ .episode none past buffer given = .error .type := rfl

/-! ## Full batches -/

/-- C108, partial: with an accepted capacity, as soon as a batch of `n` timesteps with previous and following ones is stored, an
update obtains a full batch, the newest one.  Missing: see C03, the number of stored episodes is taken as the number of
available timesteps if it is larger; and memories other than `recent`. -/
theorem timesteps_retrieved_partial {α : Type} (z : α) (ops : List (Memory.Op α)) (hops : ∀ o ∈ ops, Memory.CodesOk o)
    (batch : Bounds Int) (horizon : Horizon) (max : Option Int) (pastMax : Int) (buffer : Buffer) (given : Option Int) (c b h : Int)
    (hc : memoryCapacity "timesteps" batch horizon max pastMax buffer given = .ok c)
    (hb : batch.hi = some b) (hh : horizonMax horizon max = some h)
    (n past future : Nat) (hn : (n : Int) ≤ b) (hp : (past : Int) ≤ pastMax) (hf : (future : Int) ≤ h) (h1 : 1 ≤ n) :
    let items := (Memory.Log.run c.toNat ops).items
    n + past + future ≤ items.length →
    (Memory.retrievable c.toNat items).length + past + future ≤ (Memory.stored c.toNat items).length →
    ∃ idx, (Memory.Queue.run c.toNat z ops).recentTimesteps n past future = .ok idx ∧
      (Memory.Queue.run c.toNat z ops).retrieve idx = some ((Memory.lastN n (items.take (items.length - future))).map Prod.fst) := by
  obtain ⟨b', h', hb', hh', hch, _, _⟩ := (capacity_timesteps ..).mp hc
  rw [hb] at hb'
  cases hb'
  rw [hh] at hh'
  cases hh'
  have hcap : b + 1 + pastMax + h ≤ c := hch _ (by simp [timestepNeeds])
  intro items hlen hroom
  have hpos : 0 < c.toNat := by omega
  have hok := Memory.recent_timesteps_partial hpos z ops hops n past future hroom
  have hsl := Memory.stored_length c.toNat items
  obtain ⟨idx, hi, hr⟩ := hok.2 (by rw [hsl]; omega)
  refine ⟨idx, hi, ?_⟩
  rw [hr]
  congr 2
  show Memory.lastN n (((Memory.stored c.toNat items).drop past).take ((Memory.stored c.toNat items).length - past - future)) =
    Memory.lastN n (items.take (items.length - future))
  rw [hsl]
  unfold Memory.lastN Memory.stored
  rw [List.drop_drop, List.take_drop, List.drop_drop]
  simp only [List.length_drop, List.length_take]
  congr 1
  · omega
  · congr 1
    omega

/-- One episode of three timesteps, and a running one. -/
def someOps : List (Memory.Op Nat) := [.enqueue [(1, 0), (2, 0), (3, 1)], .enqueue [(4, 0), (5, 0)]]

example : memoryCapacity "timesteps" ⟨some 2, some 2⟩ (.steps ⟨.int 1, ⟨some 1, some 1⟩⟩) none 1 (.steps 1) none = .ok 5 ∧
    2 + 1 + 1 ≤ (Memory.Log.run 5 someOps).items.length ∧
    (Memory.retrievable 5 (Memory.Log.run 5 someOps).items).length + 1 + 1 ≤ (Memory.stored 5 (Memory.Log.run 5 someOps).items).length :=
  ⟨rfl, by decide, by decide⟩

/-- C108: with an accepted capacity, as soon as `n` episodes are finished, an update obtains the newest `n` episodes, each of
them complete, if no episode exceeds the limit. -/
theorem episodes_retrieved {α : Type} (z : α) (ops : List (Memory.Op α)) (hops : ∀ o ∈ ops, Memory.CodesOk o)
    (batch : Bounds Int) (horizon : Horizon) (max : Nat) (pastMax : Int) (buffer : Buffer) (given : Option Int) (c b : Int)
    (hc : memoryCapacity "episodes" batch horizon (some (max : Int)) pastMax buffer given = .ok c) (hb : batch.hi = some b)
    (n : Nat) (hn : (n : Int) ≤ b) (h1 : 1 ≤ n) :
    let items := (Memory.Log.run c.toNat ops).items
    n ≤ (Memory.episodes items).length → (∀ e ∈ Memory.episodes items, e.length ≤ max) → (Memory.unfinished items).length < max →
    ∃ idx, (Memory.Queue.run c.toNat z ops).recentEpisodes n = .ok idx ∧
      (Memory.Queue.run c.toNat z ops).retrieve idx = some ((Memory.lastN n (Memory.episodes items)).flatten.map Prod.fst) ∧
      (Memory.Queue.run c.toNat z ops).retrieveTerminal idx = some ((Memory.lastN n (Memory.episodes items)).flatten.map Prod.snd) := by
  obtain ⟨b', hb', hch, _, _⟩ := (capacity_episodes_partial ..).mp hc
  rw [hb] at hb'
  cases hb'
  have hcap : (b + 1) * (max : Int) ≤ c := hch _ (by simp [episodeNeeds])
  intro items hlen hmax hun
  have hcap' : (n + 1) * max ≤ c.toNat := by
    have h2 : ((n : Int) + 1) * (max : Int) ≤ (b + 1) * (max : Int) := Int.mul_le_mul_of_nonneg_right (by omega) (by omega)
    have h3 : (((n + 1) * max : Nat) : Int) ≤ c := by
      rw [Int.natCast_mul]
      have : ((n + 1 : Nat) : Int) = (n : Int) + 1 := by omega
      rw [this]
      omega
    omega
  rw [Nat.succ_mul] at hcap'
  have hpos : 0 < c.toNat := by omega
  have ht := fitNewest_take max (Memory.episodes items).reverse (fun e h => hmax e (List.mem_reverse.mp h)) n
    (c.toNat - 1 - (Memory.unfinished items).length) (by omega)
  have hl : Memory.lastN n (Memory.retrievable c.toNat items) = Memory.lastN n (Memory.episodes items) := by
    have e1 : ∀ {β : Type} (l : List β), Memory.lastN n l = (l.reverse.take n).reverse := by
      intro β l
      unfold Memory.lastN
      rw [List.take_reverse, List.reverse_reverse]
    rw [e1, e1]
    unfold Memory.retrievable
    rw [List.reverse_reverse, ht]
  have hne : Memory.retrievable c.toNat items ≠ [] := by
    intro e
    rw [e] at hl
    have : (Memory.lastN n (Memory.episodes items)).length = 0 := by rw [← hl]; simp [Memory.lastN]
    unfold Memory.lastN at this
    rw [List.length_drop] at this
    omega
  have hr := (Memory.recent_episodes_partial hpos z ops hops n).2 hne
  rw [hl] at hr
  exact hr

example : memoryCapacity "episodes" ⟨some 1, some 1⟩ .episode (some 4) 0 .episode none = .ok 8 ∧
    1 ≤ (Memory.episodes (Memory.Log.run 8 someOps).items).length ∧
    (∀ e ∈ Memory.episodes (Memory.Log.run 8 someOps).items, e.length ≤ 4) ∧
    (Memory.unfinished (Memory.Log.run 8 someOps).items).length < 4 :=
  ⟨rfl, by decide, by decide, by decide⟩

end Verif.Props.Capacity
