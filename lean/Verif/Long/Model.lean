import Verif.Stream.Model

/-!
# Model of the reading end of a stream client, byte by byte

`ekosis/clients/persistent_stream_client_base.py` ("pc") and `stream_client_base.py` ("sc") read responses with `StreamReader.readline`
(asyncio/streams.py of Python 3.11.10), which gives up on lines longer than its limit. What it then leaves in its buffer matters for the
next request on the same connection.

One connection that stays open. Requests are sent one after the other; the server answers each with one line (C37). The bytes of the
responses arrive in pieces of any size.

Simplifications: no timeouts and no lost connections (C44, C96), no heartbeats, no concurrent requests (C45).
-/

namespace Verif.Long

open Verif.Stream

/-- What a call of `readline` comes to, with the buffer it leaves. -/
inductive Read where
  | line (l rest : Bytes)
  /-- `ValueError` -/
  | overrun (rest : Bytes)
  /-- nothing yet: the call waits -/
  | wait
  deriving DecidableEq

/-- `readline` with `readuntil`, asyncio/streams.py 547-667, on a stream that has not ended. A newline behind the limit: the line is
deleted from the buffer. No newline in more bytes than the limit: `readline` clears the buffer. -/
def readline (limit : Nat) (buf : Bytes) : Read :=
  match buf.findIdx? (· = LF) with
  | some i => if i > limit then .overrun (buf.drop (i + 1)) else .line (buf.take (i + 1)) (buf.drop (i + 1))
  | none => if buf.length > limit then .overrun [] else .wait

/-- What the caller of `send_message` gets: a line, or `CommunicationsNonRetryable` (pc 151-152, sc 67-68). -/
inductive Got where
  | line (l : Bytes)
  | failed
  deriving DecidableEq, Repr

/-- The limit of the reader (65536: pc and sc open their connections without `limit`), and what the server answers to the `k`th request
of the connection, without the newline (stream_server_base.py 41). -/
structure Setup where
  limit : Nat
  answer : Nat → Bytes

/-- `wire`: bytes sent by the server that have not arrived; `buf`: the reader's buffer; `sent`: the number of requests written;
`waiting`: a request waits for its response; `got`: what the requests came to, oldest first. -/
structure St where
  wire : Bytes
  buf : Bytes
  sent : Nat
  waiting : Bool
  got : List Got
  deriving DecidableEq

/-- A new connection. -/
def new : St := ⟨[], [], 0, false, []⟩

/-- Events: a request is sent; bytes arrive; the reading task runs. -/
inductive Ev where
  | send
  | arrive (n : Nat)
  | read
  deriving DecidableEq, Repr

/-- One event; `none` when it is not possible. `send`: pc 110, sc 36, and the server's answer; `arrive`: `feed_data`, streams.py 497-517;
`read`: pc 67, 112-119, sc 38-45. -/
def step (P : Setup) (s : St) : Ev → Option St
  | .send =>
    if s.waiting then none
    else some { s with wire := s.wire ++ P.answer s.sent ++ [LF], sent := s.sent + 1, waiting := true }
  | .arrive n =>
    if n = 0 ∨ n > s.wire.length then none
    else some { s with wire := s.wire.drop n, buf := s.buf ++ s.wire.take n }
  | .read =>
    if s.waiting then
      match readline P.limit s.buf with
      | .wait => none
      | .line l rest => some { s with buf := rest, waiting := false, got := s.got ++ [.line l] }
      | .overrun rest => some { s with buf := rest, waiting := false, got := s.got ++ [.failed] }
    else none

/-- A sequence of events. -/
def steps (P : Setup) : St → List Ev → Option St
  | s, [] => some s
  | s, e :: es => match step P s e with
    | none => none
    | some s' => steps P s' es

end Verif.Long
