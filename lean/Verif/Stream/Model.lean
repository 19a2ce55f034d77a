import Verif.Server.Model

/-!
# Model of the connection loops

`StreamServerBase._handle_request` (`ekosis/servers/stream_server_base.py`, cited as "ss") on top of
`asyncio.StreamReader.readline` (CPython's `Lib/asyncio/streams.py`), and the datagram server
(`ekosis/servers/json/udp.py`, cited as "ud").

Bytes reach the reader in chunks of any size (`feed`), the peer may close its side (`eof`), and the handler
task takes turns: one turn is one `readline` with what follows up to the next `readline`. Any order of
these events is allowed. Application code is part of a turn.

Simplifications: flow control (`drain` waiting, the transport pausing) is dropped; what is written is
recorded as one entry per write.
-/

namespace Verif.Stream

open Verif.Py Verif.Server

/-- Bytes. -/
abbrev Bytes := List UInt8

/-- The constants of ss 10-12, ud 12-14. -/
def ENQ : UInt8 := 5
def ACK : UInt8 := 6
def LF : UInt8 := 10

/-- `__ACK_response`, ss 13, ud 15. -/
def ackResponse : Bytes := [ACK, LF]

/-- `bytes.decode()`: UTF-8, `none` stands for `UnicodeDecodeError`. -/
def decode (b : Bytes) : Option String := String.fromUTF8? ⟨b.toArray⟩

/-- `str.encode()`. -/
def encode (s : String) : Bytes := s.toByteArray.data.toList

/-! ### `StreamReader` -/

/-- What a call of `readline` comes to. -/
inductive Read where
  /-- a line with its newline, and the remaining buffer -/
  | line (l rest : Bytes)
  /-- the rest of the stream, without newline -/
  | tail (l : Bytes)
  /-- `ValueError`: the line is longer than the limit -/
  | overrun
  /-- nothing yet: the call waits -/
  | wait

/-- `readline` and `readuntil` of streams.py with the separator `b'\n'`. `limit` is 65536 in the code
(`asyncio.start_server` and `start_unix_server` are called without `limit`). -/
def readline (limit : Nat) (buf : Bytes) (eof : Bool) : Read :=
  match buf.findIdx? (· = LF) with
  | some i => if i > limit then .overrun else .line (buf.take (i + 1)) (buf.drop (i + 1))
  | none => if buf.length ≥ 1 ∧ buf.length > limit then .overrun else if eof then .tail buf else .wait

/-! ### Stream connections -/

/-- How the handler task of the connection stands: in its loop, returned after closing the writer, returned
without closing it, ended by an exception. -/
inductive Phase where
  | serving
  | closed
  | ignored
  | crashed
  deriving DecidableEq, Repr

/-- One connection. `out` lists the writes, oldest first. -/
structure Conn (K σ : Type) where
  buf : Bytes
  eof : Bool
  phase : Phase
  out : List Bytes
  world : World K σ

/-- The server: router and library parameters. `dumps` is `model_dump_json`; `none` stands for an exception
(data that cannot be serialised). -/
structure Endpoint (K σ : Type) where
  server : Server K σ
  dumps : Resp K → Option String
  limit : Nat

variable {K σ : Type}

/-- What is written for one line, ss 35-42; `none` when an exception leaves the loop. -/
def answer (E : Endpoint K σ) (line : Bytes) (w : World K σ) : Option Bytes × World K σ :=
  if line.head? = some ENQ then (some ackResponse, w)
  else match decode line with
    | none => (none, w)
    | some text => match routeRequest E.server text w with
      | (.error _, w') => (none, w')
      | (.ok resp, w') => match E.dumps resp with
        | none => (none, w')
        | some s => (some (encode (s ++ "\n")), w')

/-- Start of `_handle_request`, ss 22-24. -/
def accept (running : Bool) (w : World K σ) : Conn K σ where
  buf := []
  eof := false
  phase := if running then .serving else .ignored
  out := []
  world := w

/-- Events. `turnReset` is a turn in which writing raises `ConnectionResetError`. -/
inductive Ev where
  | feed (chunk : Bytes)
  | eof
  | turn
  | turnReset

/-- One turn of the loop, ss 25-45; `lost` says that the peer resets the connection during the write.
`none` when the task has ended or waits for data. -/
def turn (E : Endpoint K σ) (lost : Bool) (c : Conn K σ) : Option (Conn K σ) :=
  match c.phase with
  | .serving => match readline E.limit c.buf c.eof with
    | .wait => none
    | .overrun => some { c with phase := .crashed }
    | .tail _ => some { c with buf := [], phase := .closed }
    | .line l rest =>
      if l.isEmpty || l.getLast? ≠ some LF then some { c with buf := rest, phase := .closed }
      else match answer E l c.world with
        | (none, w) => some { c with buf := rest, world := w, phase := .crashed }
        | (some o, w) =>
          if lost then some { c with buf := rest, world := w, phase := .closed }
          else some { c with buf := rest, world := w, out := c.out ++ [o] }
  | _ => none

/-- One event; `none` when it is not possible. Data cannot arrive after the end of the stream. -/
def step (E : Endpoint K σ) (c : Conn K σ) : Ev → Option (Conn K σ)
  | .feed chunk => if c.eof then none else some { c with buf := c.buf ++ chunk }
  | .eof => if c.eof then none else some { c with eof := true }
  | .turn => turn E false c
  | .turnReset => turn E true c

/-- A sequence of events. -/
def steps (E : Endpoint K σ) : Conn K σ → List Ev → Option (Conn K σ)
  | c, [] => some c
  | c, e :: es => match step E c e with
    | none => none
    | some c' => steps E c' es

/-! ### Datagrams -/

/-- `DatagramProtocolServer`: what was sent, and the `do_response` tasks in creation order; the first one
holds the lock (`asyncio.Lock` is fair: waiters get it in order of arrival), ud 22, 28-31. -/
structure Dgram (A K σ : Type) where
  sent : List (Bytes × A)
  tasks : List (String × A)
  world : World K σ

/-- Events: a datagram arrives; the task holding the lock ends; it is cancelled. -/
inductive DEv (A : Type) where
  | receive (b : Bytes) (from_ : A)
  | respond
  | cancel

/-- One event of the datagram server. `receive` is `datagram_received`, ud 34-40 (an exception of `decode`
ends the callback); `respond` is `do_response`, ud 28-31, with `__process_received_data`, ud 68-70. -/
def dstep {A : Type} (E : Endpoint K σ) (d : Dgram A K σ) : DEv A → Option (Dgram A K σ)
  | .receive b a => some <|
    if !b.isEmpty && b.getLast? = some LF then
      if b.head? = some ACK then { d with sent := d.sent ++ [(ackResponse, a)] }
      else match decode b with
        | none => d
        | some text => { d with tasks := d.tasks ++ [(text, a)] }
    else d
  | .respond => match d.tasks with
    | [] => none
    | (text, a) :: rest => match routeRequest E.server text d.world with
      | (.error _, w) => some { d with tasks := rest, world := w }
      | (.ok resp, w) => match E.dumps resp with
        | none => some { d with tasks := rest, world := w }
        | some s => some { sent := d.sent ++ [(encode s, a)], tasks := rest, world := w }
  | .cancel => match d.tasks with
    | [] => none
    | _ :: rest => some { d with tasks := rest }

/-- A sequence of events. -/
def dsteps {A : Type} (E : Endpoint K σ) : Dgram A K σ → List (DEv A) → Option (Dgram A K σ)
  | d, [] => some d
  | d, e :: es => match dstep E d e with
    | none => none
    | some d' => dsteps E d' es

end Verif.Stream
