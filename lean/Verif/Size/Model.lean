import Verif.Stream.Model

/-!
# Model of datagrams that are too long

A datagram holds at most 65507 bytes (65535 less the headers of IPv4 and UDP). `sendto` of a longer one raises `OSError` in the socket, which
asyncio gives to `error_received` of the protocol (asyncio/selector_events.py, `_SelectorDatagramTransport.sendto`); that of `asyncio.DatagramProtocol` does
nothing (asyncio/protocols.py 170-175), and neither `DatagramProtocolClient` nor `DatagramProtocolServer` has its own.

`ekosis/clients/datagram_client_base.py` ("dc"), `ekosis/servers/json/udp.py` ("ud") and the loop of `ekosis/sending/buffered_sender_base.py` ("bs"), for one
message, on a network that loses nothing, with a server that answers in time.

Simplifications: one client, whose socket is open; nobody else uses the server meanwhile; the sender is neither paused nor stopped, and no other message
is in its queue (C24 is about queues and their order).
-/

namespace Verif.Size

open Verif.Stream

variable {W : Type}

/-- `transport.sendto`: what goes out. Nothing is sent of no data. -/
def sendto (limit : Nat) (b : Bytes) : Option Bytes :=
  if b.isEmpty then none
  else if b.length > limit then none
  else some b

/-- The server on one datagram, ud 28-40: `endpoint` is `_route_request` with `model_dump_json` and `encode`, acting on the application `W`. -/
def serve (limit : Nat) (endpoint : Bytes → W → Bytes × W) (d : Bytes) (w : W) : Option Bytes × W :=
  match d.getLast? with
  | none => (none, w)
  | some b =>
    if b = LF then
      if d.head? = some ACK then (sendto limit ackResponse, w)
      else
        let (r, w') := endpoint d w
        (sendto limit r, w')
    else (none, w)

/-- One attempt, dc 31-37 from 60-70: the reply, or `none` for `TimeoutError`. -/
def attempt (limit : Nat) (endpoint : Bytes → W → Bytes × W) (d : Bytes) (w : W) : Option Bytes × W :=
  match sendto limit d with
  | none => (none, w)
  | some d => serve limit endpoint d w

/-- How `_send_message_retry_loop` ends. -/
inductive End where
  | reply (b : Bytes)
  /-- `None` is returned: no attempt, dc 75 -/
  | nothing
  /-- `CommunicationsMaxRetriesReached` -/
  | maxRetries
  deriving DecidableEq, Repr

/-- `_send_message_retry_loop`, dc 73-86, from `retry_count` on, `n` more times than that at most: the end, the application afterwards, and how many times
`timeout` was waited for in vain. -/
def retryLoop (limit : Nat) (endpoint : Bytes → W → Bytes × W) (max : Nat) (d : Bytes) : Nat → Nat → W → End × W × Nat
  | 0, _, w => (.nothing, w, 0)
  | n + 1, rc, w =>
    if rc < max then
      match attempt limit endpoint d w with
      | (some b, w') => (.reply b, w', 0)
      | (none, w') =>
        if rc + 1 ≥ max then (.maxRetries, w', 1)
        else
          let (e, w'', k) := retryLoop limit endpoint max d n (rc + 1) w'
          (e, w'', k + 1)
    else (.nothing, w, 0)

/-- `_send_message_retry_loop` of a client with `max_retries = max`. -/
def send (limit : Nat) (endpoint : Bytes → W → Bytes × W) (max : Nat) (d : Bytes) (w : W) : End × W × Nat :=
  retryLoop limit endpoint max d (max + 1) 0 w

/-- How a message leaves a buffered sender. -/
inductive Fate where
  | sent (b : Bytes)
  /-- the error queue, with "Max retries reached." -/
  | maxRetries
  /-- the error queue, with the text of another exception (`json.loads(None)`, client_base.py 78) -/
  | other
  deriving DecidableEq, Repr

/-- The loop of the sender, bs 85-104, for one message that has been tried `retries` times, `n` more times at most. -/
def senderLoop (limit : Nat) (endpoint : Bytes → W → Bytes × W) (max smax : Nat) (d : Bytes) : Nat → Nat → W → Fate × W × Nat
  | 0, _, w => (.maxRetries, w, 0)
  | n + 1, retries, w =>
    match send limit endpoint max d w with
    | (.reply b, w', k) => (.sent b, w', k)
    | (.nothing, w', k) => (.other, w', k)
    | (.maxRetries, w', k) =>
      if retries + 1 ≥ smax then (.maxRetries, w', k)
      else
        let (f, w'', j) := senderLoop limit endpoint max smax d n (retries + 1) w'
        (f, w'', k + j)

/-- A buffered sender with `max_retries = smax` on a client with `max_retries = max`. -/
def bufferedSend (limit : Nat) (endpoint : Bytes → W → Bytes × W) (max smax : Nat) (d : Bytes) (w : W) : Fate × W × Nat :=
  senderLoop limit endpoint max smax d (smax + 1) 0 w

end Verif.Size
