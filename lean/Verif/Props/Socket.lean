import Verif.Env.Socket

/-!
# Property C20: socket framing
-/

namespace Verif.Props.Socket

open Verif.Env.Socket

/-! ## Helper lemmas -/

theorem parse_snoc (b : Bytes) (d : Nat) :
    parse (b ++ [d]) = (parse b).bind fun n => if 48 ≤ d ∧ d ≤ 57 then some (10 * n + (d - 48)) else none := by
  simp [parse, List.foldl_append]

theorem parse_digits (n k : Nat) : parse (digits n k) = some (k % 10 ^ n) := by
  induction n generalizing k with
  | zero => simp [digits, parse, Nat.mod_one]
  | succ n ih =>
    rw [digits, parse_snoc, ih, Option.bind_some, if_pos (by omega)]
    congr 1
    rw [Nat.pow_succ, Nat.mul_comm (10 ^ n) 10, Nat.mod_mul]
    omega

theorem digits_length (n k : Nat) : (digits n k).length = n := by
  induction n generalizing k with
  | zero => rfl
  | succ n ih => simp [digits, ih]

theorem digits_take (n m k : Nat) : (digits (n + m) k).take n = digits n (k / 10 ^ m) := by
  induction m generalizing k with
  | zero => simp [List.take_of_length_le, digits_length]
  | succ m ih =>
    rw [← Nat.add_assoc, digits, List.take_append_of_le_length (by rw [digits_length]; omega), ih, Nat.div_div_eq_div_mul,
      Nat.pow_succ, Nat.mul_comm]

theorem header_small (k : Nat) (h : k < 10 ^ 8) : header k = digits 8 k := by
  unfold header extraDigits
  rw [if_pos h]

/-- The leading eight digits of a long header. -/
theorem header_large (k : Nat) : 10 ^ 8 ≤ k → 10 ^ 7 ≤ k / 10 ^ extraDigits k ∧ k / 10 ^ extraDigits k < 10 ^ 8 := by
  induction k using Nat.strongRecOn with
  | _ k ih =>
    intro h
    have e : k / 10 ^ extraDigits k = k / 10 / 10 ^ extraDigits (k / 10) := by
      conv => lhs; rw [extraDigits, if_neg (Nat.not_lt.mpr h)]
      rw [Nat.pow_add, Nat.pow_one, ← Nat.div_div_eq_div_mul]
    rw [e]
    by_cases h' : k / 10 < 10 ^ 8
    · rw [extraDigits, if_pos h', Nat.pow_zero, Nat.div_one]
      omega
    · exact ih (k / 10) (by omega) (by omega)

theorem recv_prefix (k : Nat) (c : Conn) :
    ∃ j, j ≤ k ∧ (recv k c).2 = c.data.take j ∧ (recv k c).1.data = c.data.drop j := by
  unfold recv
  split
  · exact ⟨k, Nat.le_refl _, rfl, rfl⟩
  · exact ⟨_, Nat.min_le_left _ _, rfl, rfl⟩

theorem recv_one (c : Conn) : (recv 1 c).2 = c.data.take 1 ∧ (recv 1 c).1.data = c.data.drop 1 := by
  unfold recv
  split
  · exact ⟨rfl, rfl⟩
  · rename_i q qs _
    have : min 1 (max 1 q) = 1 := by omega
    simp only [this]
    exact ⟨trivial, trivial⟩

/-- A `recv` that returns as much as was asked for took exactly that prefix. -/
theorem recv_full (k : Nat) (c : Conn) (h : (recv k c).2.length = k) :
    (recv k c).2 = c.data.take k ∧ (recv k c).1.data = c.data.drop k := by
  obtain ⟨j, hj, h1, h2⟩ := recv_prefix k c
  rw [h1, List.length_take] at h
  have : j = k := by omega
  subst this
  exact ⟨h1, h2⟩

theorem recv_nonempty (k : Nat) (c : Conn) (hk : 0 < k) (hc : c.data ≠ []) : (recv k c).2 ≠ [] := by
  cases hd : c.data with
  | nil => exact absurd hd hc
  | cons x xs =>
    unfold recv
    split
    · rw [hd]
      cases k with
      | zero => omega
      | succ k => simp
    · rw [hd]
      rename_i q qs _
      cases hm : min k (max 1 q) with
      | zero => omega
      | succ n => simp

theorem recv_empty (k : Nat) (c : Conn) (hc : c.data = []) : (recv k c).2 = [] ∧ (recv k c).1.data = [] := by
  obtain ⟨j, _, h1, h2⟩ := recv_prefix k c
  rw [h1, h2, hc]
  simp

theorem recvChunks_empty (todo n : Nat) (acc : Bytes) (c : Conn) (hc : c.data = []) (r : Conn × Bytes)
    (h : recvChunks todo n acc c = some r) : r.1.data = [] ∧ r.2 = acc := by
  induction todo generalizing n c acc with
  | zero => simp only [recvChunks, Option.some.injEq] at h; subst h; exact ⟨hc, rfl⟩
  | succ todo ih =>
    have he := recv_empty maxBytes c hc
    simp only [recvChunks, he.1, List.append_nil] at h
    split at h
    · simp at h
    · exact ih _ _ _ he.2 h

/-- The body of `recvFrame` after the header fails for every length of 4096 bytes or more. -/
theorem body_large (num : Nat) (c : Conn) (h : maxBytes ≤ num) :
    ((recvChunks (num / maxBytes) 0 [] c).bind fun r =>
      let l := recv (num % maxBytes) r.1
      let acc := r.2 ++ l.2
      if acc.length ≠ num then none else some (l.1, acc)) = none := by
  cases hd : num / maxBytes with
  | zero =>
    exfalso
    have : maxBytes = 4096 := rfl
    rw [this] at hd h
    omega
  | succ todo =>
    by_cases hc : c.data = []
    · cases hr : recvChunks (todo + 1) 0 [] c with
      | none => rfl
      | some r =>
        obtain ⟨h1, h2⟩ := recvChunks_empty _ _ _ _ hc _ hr
        have he := recv_empty (num % maxBytes) r.1 h1
        simp only [Option.bind_some, h2, he.1, List.append_nil, List.length_nil]
        rw [if_pos]
        have : maxBytes = 4096 := rfl
        omega
    · simp only [recvChunks, List.nil_append, Nat.zero_mul]
      rw [if_pos]
      · rfl
      · intro h0
        exact recv_nonempty maxBytes c (by decide) hc (List.length_eq_zero_iff.mp h0)

theorem header_take (p rest : Bytes) (hp : p.length < 10 ^ 8) :
    (frame p ++ rest).take 8 = digits 8 p.length ∧ (frame p ++ rest).drop 8 = p ++ rest := by
  have hl := digits_length 8 p.length
  constructor
  · rw [frame, header_small _ hp, List.append_assoc, List.take_append_of_le_length (by omega),
      List.take_of_length_le (by omega)]
  · rw [frame, header_small _ hp, List.append_assoc, List.drop_append_of_le_length (by omega),
      List.drop_of_length_le (by omega), List.nil_append]

theorem header_take_large (p rest : Bytes) (hp : 10 ^ 8 ≤ p.length) :
    ∃ k, 10 ^ 7 ≤ k ∧ k < 10 ^ 8 ∧ (frame p ++ rest).take 8 = digits 8 k := by
  obtain ⟨h1, h2⟩ := header_large p.length hp
  refine ⟨_, h1, h2, ?_⟩
  rw [frame, header, List.append_assoc, List.take_append_of_le_length (by rw [digits_length]; omega), digits_take]

/-! ## Properties -/

/-- **C20, safety half**: whatever the transport does, a frame that is received at all is the frame that was sent, and
the following bytes are left untouched. -/
theorem recvFrame_sound (p rest : Bytes) (quota : List Nat) (c : Conn) (p' : Bytes)
    (h : recvFrame ⟨frame p ++ rest, quota⟩ = some (c, p')) : p' = p ∧ c.data = rest := by
  simp only [recvFrame] at h
  split at h
  · simp at h
  · rename_i hlen
    have hlen : (recv 8 ⟨frame p ++ rest, quota⟩).2.length = 8 := by omega
    obtain ⟨h1, h2⟩ := recv_full 8 _ hlen
    by_cases hp : p.length < 10 ^ 8
    · obtain ⟨ht, hd⟩ := header_take p rest hp
      rw [h1] at h
      simp only [ht, parse_digits, Nat.mod_eq_of_lt hp, Option.bind_some] at h
      rw [hd] at h2
      by_cases hm : maxBytes ≤ p.length
      · rw [body_large _ _ hm] at h
        simp at h
      · rw [Nat.div_eq_of_lt (by omega), Nat.mod_eq_of_lt (by omega)] at h
        simp only [recvChunks, Option.bind_some, List.nil_append] at h
        split at h
        · simp at h
        · rename_i hl
          have hl : (recv p.length (recv 8 ⟨frame p ++ rest, quota⟩).1).2.length = p.length := by omega
          obtain ⟨h3, h4⟩ := recv_full _ _ hl
          rw [h2] at h3 h4
          simp only [Option.some.injEq, Prod.mk.injEq] at h
          rw [← h.1, ← h.2, h3, h4]
          simp
    · obtain ⟨k, hk, hk', ht⟩ := header_take_large p rest (by omega)
      rw [h1] at h
      simp only [ht, parse_digits, Nat.mod_eq_of_lt hk', Option.bind_some] at h
      rw [body_large _ _ (by have : maxBytes = 4096 := rfl; omega)] at h
      simp at h

/-- **C20, safety half** for responses. -/
theorem response_sound (s : Bool) (p rest : Bytes) (quota : List Nat) (c : Conn) (s' : Bool) (p' : Bytes)
    (h : recvResponse ⟨sendResponse s p ++ rest, quota⟩ = some (c, s', p')) : s' = s ∧ p' = p ∧ c.data = rest := by
  simp only [recvResponse] at h
  obtain ⟨h1, h2⟩ := recv_one ⟨sendResponse s p ++ rest, quota⟩
  have e1 : (sendResponse s p ++ rest).take 1 = if s then [49] else [48] := by cases s <;> simp [sendResponse]
  have e2 : (sendResponse s p ++ rest).drop 1 = frame p ++ rest := by cases s <;> simp [sendResponse]
  simp only [e1, e2] at h1 h2
  rw [h1] at h
  rw [if_pos (by cases s <;> simp)] at h
  cases hr : recvFrame (recv 1 ⟨sendResponse s p ++ rest, quota⟩).1 with
  | none => rw [hr] at h; simp at h
  | some r =>
    rw [hr] at h
    simp only [Option.map_some, Option.some.injEq, Prod.mk.injEq] at h
    generalize hc : (recv 1 ⟨sendResponse s p ++ rest, quota⟩).1 = c1 at hr h2
    obtain ⟨d, q⟩ := c1
    simp only at h2
    subst h2
    have := recvFrame_sound p rest q r.1 r.2 hr
    rw [← h.1, ← h.2.1, ← h.2.2, this.1, this.2]
    exact ⟨by cases s <;> simp, rfl, rfl⟩

/-- **C20, safety half** for requests. -/
theorem request_sound (f k rest : Bytes) (quota : List Nat) (c : Conn) (f' k' : Bytes)
    (h : recvRequest ⟨sendRequest f k ++ rest, quota⟩ = some (c, f', k')) : f' = f ∧ k' = k ∧ c.data = rest := by
  simp only [recvRequest, sendRequest, List.append_assoc] at h
  cases hr : recvFrame ⟨frame f ++ (frame k ++ rest), quota⟩ with
  | none => rw [hr] at h; simp at h
  | some r =>
    obtain ⟨⟨d, q⟩, f1⟩ := r
    obtain ⟨h1, h2⟩ := recvFrame_sound _ _ _ _ _ hr
    simp only at h2
    subst h1 h2
    rw [hr] at h
    simp only [Option.bind_some] at h
    cases hr2 : recvFrame ⟨frame k ++ rest, q⟩ with
    | none => rw [hr2] at h; simp at h
    | some r2 =>
      obtain ⟨c2, k2⟩ := r2
      obtain ⟨h3, h4⟩ := recvFrame_sound _ _ _ _ _ hr2
      rw [hr2] at h
      simp only [Option.map_some, Option.some.injEq, Prod.mk.injEq] at h
      obtain ⟨rfl, rfl, rfl⟩ := h
      exact ⟨rfl, h3, h4⟩

/-- Below 4096 bytes, with a transport that always delivers what is asked for, one frame arrives. -/
theorem recvFrame_complete (p rest : Bytes) (hp : p.length < maxBytes) :
    recvFrame ⟨frame p ++ rest, []⟩ = some (⟨rest, []⟩, p) := by
  have hm : maxBytes = 4096 := rfl
  obtain ⟨ht, hd⟩ := header_take p rest (by omega)
  have hp8 : p.length < 10 ^ 8 := by omega
  simp only [recvFrame, recv, ht, hd, digits_length, ne_eq, not_true_eq_false, if_false, parse_digits,
    Nat.mod_eq_of_lt hp8, Option.bind_some]
  rw [Nat.div_eq_of_lt hp, Nat.mod_eq_of_lt hp]
  simp [recvChunks]

/-- **C20, partial**: every sequence of responses shorter than 4096 bytes arrives unchanged and separated, provided that
every `recv` delivers what is asked for. Missing: longer messages and split reads, see the violations. -/
theorem responses_roundtrip_partial (msgs : List (Bool × Bytes)) (rest : Bytes)
    (hm : ∀ m ∈ msgs, m.2.length < maxBytes) :
    recvResponses msgs.length ⟨(msgs.map fun m => sendResponse m.1 m.2).flatten ++ rest, []⟩ =
      some (⟨rest, []⟩, msgs) := by
  induction msgs with
  | nil => rfl
  | cons m msgs ih =>
    obtain ⟨s, p⟩ := m
    have h0 : ∀ T, recvResponse ⟨sendResponse s p ++ T, []⟩ = some (⟨T, []⟩, s, p) := by
      intro T
      have := recvFrame_complete p T (hm (s, p) (by simp))
      cases s <;> simp [recvResponse, sendResponse, recv, this]
    have h1 : recvResponse ⟨sendResponse s p ++ ((msgs.map fun m => sendResponse m.1 m.2).flatten ++ rest), []⟩ =
        some (⟨(msgs.map fun m => sendResponse m.1 m.2).flatten ++ rest, []⟩, s, p) := h0 _
    simp only [List.length_cons, recvResponses, List.map_cons, List.flatten_cons, List.append_assoc]
    rw [h1, Option.bind_some, ih (fun m hm' => hm m (by simp [hm']))]
    rfl

/-- **C20, partial**: the same for a request. -/
theorem request_roundtrip_partial (f k rest : Bytes) (hf : f.length < maxBytes) (hk : k.length < maxBytes) :
    recvRequest ⟨sendRequest f k ++ rest, []⟩ = some (⟨rest, []⟩, f, k) := by
  simp [recvRequest, sendRequest, recvFrame_complete _ _ hf, recvFrame_complete _ _ hk]

/-- **C20 fails (long messages)**: no message of 4096 bytes or more is ever received, whatever the transport does. -/
theorem long_message_violation (p rest : Bytes) (quota : List Nat) (hp : maxBytes ≤ p.length) :
    recvFrame ⟨frame p ++ rest, quota⟩ = none := by
  cases h : recvFrame ⟨frame p ++ rest, quota⟩ with
  | none => rfl
  | some r =>
    exfalso
    simp only [recvFrame] at h
    split at h
    · simp at h
    · rename_i hlen
      have hlen : (recv 8 ⟨frame p ++ rest, quota⟩).2.length = 8 := by omega
      obtain ⟨h1, h2⟩ := recv_full 8 _ hlen
      rw [h1] at h
      have hm : maxBytes = 4096 := rfl
      by_cases hp8 : p.length < 10 ^ 8
      · simp only [(header_take p rest hp8).1, parse_digits, Nat.mod_eq_of_lt hp8, Option.bind_some] at h
        rw [body_large _ _ hp] at h
        simp at h
      · obtain ⟨k, hk, hk', ht⟩ := header_take_large p rest (by omega)
        simp only [ht, parse_digits, Nat.mod_eq_of_lt hk', Option.bind_some] at h
        rw [body_large _ _ (by omega)] at h
        simp at h

theorem frame_two : frame [7, 8] = [48, 48, 48, 48, 48, 48, 48, 50, 7, 8] := by
  rw [frame, header_small _ (by decide)]
  rfl

/-- **C20 fails (split reads)**: a two-byte message of which the transport delivers the bytes one by one is refused. -/
theorem split_read_violation : recvFrame ⟨frame [7, 8], [8, 1, 1]⟩ = none := by
  rw [frame_two]
  decide

-- non-vacuity
example : recvResponses 2 ⟨sendResponse true [1, 2, 3] ++ (sendResponse false [] ++ []) ++ [9], []⟩ =
    some (⟨[9], []⟩, [(true, [1, 2, 3]), (false, [])]) :=
  responses_roundtrip_partial [(true, [1, 2, 3]), (false, [])] [9] (by decide)

example : recvFrame ⟨frame [7, 8], [8, 2]⟩ = some (⟨[], []⟩, [7, 8]) := by
  rw [frame_two]
  decide

example : recvRequest ⟨sendRequest [7, 8] [7, 8], [8, 2, 8, 2]⟩ = some (⟨[], []⟩, [7, 8], [7, 8]) := by
  rw [sendRequest, frame_two]
  decide

end Verif.Props.Socket
