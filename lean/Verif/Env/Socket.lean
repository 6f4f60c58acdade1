/-!
# Model of the socket framing

Models `tensorforce/environments/socket_environment.py`: `proxy_send` (lines 52-65), `proxy_receive` (68-88),
`remote_send` (96-107), `remote_receive` (110-139).

Simplifications: bytes are natural numbers; `msgpack` and string encoding are outside (payloads are byte lists);
`connection.send` transmits everything (a partial send raises, lines 57, 64, 106); `int()` accepts exactly ASCII digits (on
anything else it is modelled as raising).
-/

namespace Verif.Env.Socket

abbrev Bytes := List Nat

def maxBytes : Nat := 4096    -- line 37

/-- `n` decimal digits of `k`, most significant first, ASCII. -/
def digits : Nat → Nat → Bytes
  | 0, _ => []
  | n + 1, k => digits n (k / 10) ++ [48 + k % 10]

/-- Number of decimal digits beyond eight needed for `k`. -/
def extraDigits (k : Nat) : Nat := if k < 10 ^ 8 then 0 else 1 + extraDigits (k / 10)
termination_by k
decreasing_by omega

/-- `'{:08d}'.format(k).encode()`: at least eight digits. -/
def header (k : Nat) : Bytes := digits (8 + extraDigits k) k

/-- One framed item, lines 53-58, 60-65, 102-107. -/
def frame (payload : Bytes) : Bytes := header payload.length ++ payload

/-- `proxy_send`, lines 52-65. -/
def sendRequest (function kwargs : Bytes) : Bytes := frame function ++ frame kwargs

/-- `remote_send`, lines 96-107. -/
def sendResponse (success : Bool) (result : Bytes) : Bytes := (if success then [49] else [48]) ++ frame result

/-- A connection: the bytes in flight, and how the transport will split them: `quota` bounds the number of bytes each of
the next `recv` calls returns (at least one byte if any is there; beyond the list there is no bound). -/
structure Conn where
  data : Bytes
  quota : List Nat
  deriving DecidableEq

/-- `connection.recv(k)`. -/
def recv (k : Nat) (c : Conn) : Conn × Bytes :=
  match c.quota with
  | [] => ({ data := c.data.drop k, quota := [] }, c.data.take k)
  | q :: qs => ({ data := c.data.drop (min k (max 1 q)), quota := qs }, c.data.take (min k (max 1 q)))

/-- `int(str.decode())`. -/
def parse (b : Bytes) : Option Nat :=
  b.foldl (fun acc d => acc.bind fun n => if 48 ≤ d ∧ d ≤ 57 then some (10 * n + (d - 48)) else none) (some 0)

/-- The loop over full chunks, lines 79-82, 116-119, 130-133: after chunk number `n` (from 0) the length is compared
with `n * MAX_BYTES`. `todo` chunks are left. -/
def recvChunks : Nat → Nat → Bytes → Conn → Option (Conn × Bytes)
  | 0, _, acc, c => some (c, acc)
  | todo + 1, n, acc, c =>
    let r := recv maxBytes c
    let acc := acc ++ r.2
    if acc.length ≠ n * maxBytes then none else recvChunks todo (n + 1) acc r.1

/-- Receiving one framed item, lines 74-85, 111-122, 125-136. -/
def recvFrame (c : Conn) : Option (Conn × Bytes) :=
  let h := recv 8 c
  if h.2.length ≠ 8 then none
  else
    (parse h.2).bind fun num =>
    (recvChunks (num / maxBytes) 0 [] h.1).bind fun r =>
      let l := recv (num % maxBytes) r.1
      let acc := r.2 ++ l.2
      if acc.length ≠ num then none else some (l.1, acc)

/-- `remote_receive`, lines 110-139. -/
def recvRequest (c : Conn) : Option (Conn × Bytes × Bytes) :=
  (recvFrame c).bind fun f => (recvFrame f.1).map fun k => (k.1, f.2, k.2)

/-- `proxy_receive`, lines 68-88. -/
def recvResponse (c : Conn) : Option (Conn × Bool × Bytes) :=
  let s := recv 1 c
  if s.2 = [48] ∨ s.2 = [49] then (recvFrame s.1).map fun r => (r.1, decide (s.2 = [49]), r.2)
  else none

/-- Receiving a sequence of responses. -/
def recvResponses : Nat → Conn → Option (Conn × List (Bool × Bytes))
  | 0, c => some (c, [])
  | n + 1, c => (recvResponse c).bind fun r => (recvResponses n r.1).map fun rs => (rs.1, r.2 :: rs.2)

end Verif.Env.Socket
