import Verif.Py.Json
import Verif.Buffered.Model

/-!
# Model of the clients

`ekosis/clients/client_base.py` ("cb"), `stream_client_base.py` ("sc", used by the transient TCP and UDS
clients), `persistent_stream_client_base.py` ("pc"), `datagram_client_base.py` ("dc"), and the way
`ekosis/sending/buffered_sender_base.py` ("bs") reacts to their errors.

Sockets and time are replaced by what they lead to: every attempt to exchange a request for a reply has an
outcome, chosen freely. Delays between attempts are dropped.
-/

namespace Verif.Client

open Verif.Py

/-- Exceptions that leave `send_message`. The first ten are the client errors of `ekosis.exceptions`; the
others are exceptions of libraries that nothing translates. -/
inductive Err where
  | parsing (msg : String)
  | denied (msg : String)
  | validation (msg : String)
  | routeKeyUnknown (msg : String)
  | busy (msg : String)
  | processing (msg : String)
  | unhandled (msg : String)
  | unknownStatus (msg : String)
  | nonRetryable
  | maxRetries
  /-- `json.JSONDecodeError` -/
  | json
  /-- `pydantic.ValidationError` -/
  | schema
  /-- exceptions of Python itself -/
  | py (e : PyErr)
  /-- an `OSError` raised while reconnecting -/
  | os
  /-- cancellation and other `BaseException`s -/
  | base
  deriving DecidableEq, Repr

/-! ### Reading a reply -/

/-- Library behaviour: `json.loads`, validation of the response's span key, `str(data)`, the text of a
number, and `response_dto_type(**fields)`. -/
structure Lib (β : Type) where
  loads : String → Option Json
  spanOk : Json → Bool
  text : Json → String
  numeral : Int → String
  build : List (String × Json) → Option β

/-- `ResponseDTO`, json_protocol.py 63-66, without its span key. -/
structure Reply where
  status : Int
  data : Json
  deriving DecidableEq

variable {β : Type}

/-- `ClientBase.generate_response_exception`, cb 39-62. `request.data.json()` in the second branch: what
`json.loads` produces (dictionary, list, text, number, boolean or `None`) has no attribute `json`. -/
def generateException (L : Lib β) (r : Reply) : Err :=
  if r.status = 100 then .parsing (L.text r.data)
  else if r.status = 200 then .py .attributeError
  else if r.status = 300 then .validation (L.text r.data)
  else if r.status = 400 then .routeKeyUnknown (L.text r.data)
  else if r.status = 500 then .busy (L.text r.data)
  else if r.status = 600 then .processing (L.text r.data)
  else if r.status = 999 then .unhandled (L.text r.data)
  else .unknownStatus ("Unrecognised status code[" ++ L.numeral r.status ++ "]: " ++ L.text r.data)

/-- `ResponseDTO(**response_dict)`, cb 79. `span_key` may be missing or `null`; `status` must be a number (the
coercions that pydantic makes from text and from whole floats are left out). -/
def replyDto (L : Lib β) : Json → Except Err Reply
  | .obj fields =>
    match Dict.get? fields "status", Dict.get? fields "data" with
    | some (.int status), some data =>
      match Dict.get? fields "span_key" with
      | none => .ok { status, data }
      | some .null => .ok { status, data }
      | some sk => if L.spanOk sk then .ok { status, data } else .error .schema
    | _, _ => .error .schema
  | _ => .error (.py .typeError)

/-- The end of `send_message`, cb 81-85. `**` of something that is not a dictionary raises `TypeError`. -/
def conclude (L : Lib β) (r : Reply) : Except Err β :=
  if r.status ≠ 0 then .error (generateException L r)
  else match r.data with
    | .obj fields => match L.build fields with
      | some v => .ok v
      | none => .error .schema
    | _ => .error (.py .typeError)

/-- `send_message` after the retry loop, cb 77-85. `none`: the loop ended without a reply, and
`json.loads(None)` raises `TypeError`. -/
def interpret (L : Lib β) : Option String → Except Err β
  | none => .error (.py .typeError)
  | some text => match L.loads text with
    | none => .error .json
    | some j => match replyDto L j with
      | .error e => .error e
      | .ok r => conclude L r

/-- What a buffered sender makes of the result, bs 97-104: only `ServerBusyException` and
`CommunicationsMaxRetriesReached` are worth another try. -/
def outcomeOf (text : Err → String) : Except Err β → Verif.Buffered.Outcome String
  | .ok _ => .ok
  | .error (.busy _) => .retry
  | .error .maxRetries => .retry
  | .error .base => .raise
  | .error e => .fatal (text e)

/-! ### Retry loops -/

/-- How one call of `_send_message` ends. `broken`: `ConnectionResetError`, `ConnectionAbortedError` or
`BrokenPipeError`; `empty`: the peer closed its side; `reconnects` says whether opening a new connection
then works (only the persistent client tries). `other`: any other `Exception`. -/
inductive Attempt where
  | reply (text : String)
  | timeout
  | broken (reconnects : Bool)
  | empty (reconnects : Bool)
  | other
  | base
  deriving DecidableEq, Repr

/-- How a retry loop ends. `nothing`: the function falls off its end and returns `None`; `pending`: the given
outcomes are used up. -/
inductive End where
  | value (text : String)
  | nothing
  | raised (e : Err)
  | pending
  deriving DecidableEq, Repr

/-- One attempt counted. -/
def count (x : End × Nat) : End × Nat := (x.1, x.2 + 1)

/-- `StreamClientBase._send_message_retry_loop`, sc 48-68. Each element is what `self.success` is when the loop
condition is evaluated, and the outcome of the attempt that then follows. The number is that of attempts. -/
def transientLoop (max : Int) : Int → List (Bool × Attempt) → End × Nat
  | _, [] => (.pending, 0)
  | rc, (success, a) :: rest =>
    if rc < max ∧ success = false then
      count <| match a with
      | .reply s => (.value s, 0)
      | .timeout => if rc + 1 ≥ max then (.raised .maxRetries, 0) else transientLoop max (rc + 1) rest
      | .broken _ => if rc + 1 ≥ max then (.raised .maxRetries, 0) else transientLoop max (rc + 1) rest
      | .empty _ => (.raised .nonRetryable, 0)
      | .other => (.raised .nonRetryable, 0)
      | .base => (.raised .base, 0)
    else (.nothing, 0)

/-- `PersistentStreamClientBase._send_message_retry_loop` with `__do_retry_logic`, pc 122-152. Reconnecting takes
place inside the `except` clause: an error there is not translated. -/
def persistentLoop (max : Int) : Int → List (Bool × Attempt) → End × Nat
  | _, [] => (.pending, 0)
  | rc, (success, a) :: rest =>
    if rc < max ∧ success = false then
      count <| match a with
      | .reply s => (.value s, 0)
      | .timeout => if rc + 1 ≥ max then (.raised .maxRetries, 0) else persistentLoop max (rc + 1) rest
      | .broken false => (.raised .os, 0)
      | .broken true => if rc + 1 ≥ max then (.raised .maxRetries, 0) else persistentLoop max (rc + 1) rest
      | .empty false => (.raised .os, 0)
      | .empty true => if rc + 1 ≥ max then (.raised .maxRetries, 0) else persistentLoop max (rc + 1) rest
      | .other => (.raised .nonRetryable, 0)
      | .base => (.raised .base, 0)
    else (.nothing, 0)

/-- `DatagramClientBase._send_message_retry_loop`, dc 73-86; it does not look at `self.success`. -/
def datagramLoop (max : Int) : Int → List (Bool × Attempt) → End × Nat
  | _, [] => (.pending, 0)
  | rc, (_, a) :: rest =>
    if rc < max then
      count <| match a with
      | .reply s => (.value s, 0)
      | .timeout => if rc + 1 ≥ max then (.raised .maxRetries, 0) else datagramLoop max (rc + 1) rest
      | .broken _ => (.raised .nonRetryable, 0)
      | .empty _ => (.raised .nonRetryable, 0)
      | .other => (.raised .nonRetryable, 0)
      | .base => (.raised .base, 0)
    else (.nothing, 0)

/-- The clients. -/
inductive Kind where
  | transient
  | persistent
  | datagram
  deriving DecidableEq, Repr

/-- The retry loop of each client, as called by `send_message` (cb 72-77). -/
def retryLoop : Kind → Int → List (Bool × Attempt) → End × Nat
  | .transient, max => transientLoop max 0
  | .persistent, max => persistentLoop max 0
  | .datagram, max => datagramLoop max 0

/-- `send_message`, cb 65-85: loop, then reading the reply. `none`: the given outcomes are used up. -/
def sendMessage (L : Lib β) (kind : Kind) (max : Int) (attempts : List (Bool × Attempt)) : Option (Except Err β) :=
  match (retryLoop kind max attempts).1 with
  | .value s => some (interpret L (some s))
  | .nothing => some (interpret L none)
  | .raised e => some (.error e)
  | .pending => none

/-! ### Several sends on one client

`self.success` belongs to the client object. Between an attempt and the next evaluation of the loop condition
other sends may run (`asyncio.sleep`, waiting for the reply). -/

/-- A send: at the loop condition (with its `retry_count`), waiting for the outcome of an attempt, or over. -/
inductive Pc where
  | check (rc : Int)
  | wait (rc : Int)
  | over (e : End)
  deriving DecidableEq, Repr

/-- The client object: the shared flag, and the sends in the order they were started. -/
structure Shared where
  success : Bool
  sends : List Pc
  deriving DecidableEq

/-- Events: a send is started (cb 72-77; it evaluates its loop condition before anything else runs); send `i` evaluates its loop
condition again; the attempt of send `i` ends. -/
inductive SEv where
  | start
  | check (i : Nat)
  | outcome (i : Nat) (a : Attempt)

/-- What follows an outcome in the loop of each client: the next position, and whether `self.success = True`
is executed. -/
def after (kind : Kind) (max rc : Int) : Attempt → Pc × Bool
  | .reply s => (.over (.value s), kind ≠ .datagram)
  | .base => (.over (.raised .base), false)
  | .other => (.over (.raised .nonRetryable), false)
  | .timeout => (if rc + 1 ≥ max then .over (.raised .maxRetries) else .check (rc + 1), false)
  | .broken re => match kind with
    | .transient => (if rc + 1 ≥ max then .over (.raised .maxRetries) else .check (rc + 1), false)
    | .persistent =>
      (if re then if rc + 1 ≥ max then .over (.raised .maxRetries) else .check (rc + 1) else .over (.raised .os), false)
    | .datagram => (.over (.raised .nonRetryable), false)
  | .empty re => match kind with
    | .persistent =>
      (if re then if rc + 1 ≥ max then .over (.raised .maxRetries) else .check (rc + 1) else .over (.raised .os), false)
    | _ => (.over (.raised .nonRetryable), false)

/-- One event; `none` when it is not possible. -/
def sstep (kind : Kind) (max : Int) (c : Shared) : SEv → Option Shared
  | .start => some { success := false, sends := c.sends ++ [if 0 < max then .wait 0 else .over .nothing] }
  | .check i => match c.sends[i]? with
    | some (.check rc) =>
      if rc < max ∧ (kind = .datagram ∨ c.success = false) then some { c with sends := c.sends.set i (.wait rc) }
      else some { c with sends := c.sends.set i (.over .nothing) }
    | _ => none
  | .outcome i a => match c.sends[i]? with
    | some (.wait rc) =>
      let (pc, s) := after kind max rc a
      some { success := c.success || s, sends := c.sends.set i pc }
    | _ => none

/-- A sequence of events. -/
def ssteps (kind : Kind) (max : Int) : Shared → List SEv → Option Shared
  | c, [] => some c
  | c, e :: es => match sstep kind max c e with
    | none => none
    | some c' => ssteps kind max c' es

/-! ### Replies on a persistent connection

The server answers the lines of a connection in order (C37), so the replies that are under way are those to
`pipe`, oldest first. Whoever holds the read lock reads the next line; the others wait in order (the lock is
fair). The heartbeat task is one of the readers. -/

/-- What is written: a request with an identity, or a heartbeat. -/
inductive Line where
  | request (r : Nat)
  | enq
  deriving DecidableEq, Repr

/-- A line written, and who waits for the reply to it. -/
structure Waiter where
  id : Nat
  line : Line
  deriving DecidableEq, Repr

/-- `PersistentStreamClientBase`, pc 33-41: `connected`; lines whose replies have not been read; readers, the first
holding the lock; `got`: who read the reply to what, oldest first. -/
structure Pipe where
  connected : Bool
  pipe : List Line
  waiting : List Waiter
  got : List (Waiter × Line)
  deriving DecidableEq

/-- Events. -/
inductive PEv where
  /-- `__check_connected`, `__do_write`, and joining the readers, pc 104-112, 70-78 -/
  | send (w : Waiter)
  /-- a reply line is read, pc 65-67 -/
  | reply
  /-- the read times out, pc 67, 140-141 -/
  | timeout
  /-- the read shows that the connection is gone, pc 113-115, 80-85 -/
  | lost
  /-- `__check_connected` opens a new connection, pc 54-57 -/
  | reconnect
  deriving DecidableEq

/-- One event; `none` when it is not possible. A heartbeat that reads anything but an ACK line marks the connection as
gone, pc 80-87. -/
def pstep (p : Pipe) : PEv → Option Pipe
  | .send w =>
    if p.connected then some { p with pipe := p.pipe ++ [w.line], waiting := p.waiting ++ [w] }
    else some { p with connected := true, pipe := [w.line], waiting := p.waiting ++ [w] }
  | .reply => match p.waiting, p.pipe with
    | w :: ws, l :: ls => some
      { connected := p.connected && !(decide (w.line = .enq) && decide (l ≠ .enq)),
        pipe := ls, waiting := ws, got := p.got ++ [(w, l)] }
    | _, _ => none
  | .timeout => match p.waiting with
    | _ :: ws => some { p with waiting := ws }
    | [] => none
  | .lost => match p.waiting with
    | _ :: ws => some { p with connected := false, waiting := ws }
    | [] => none
  | .reconnect => if p.connected then none else some { p with connected := true, pipe := [] }

/-- A sequence of events. -/
def psteps : Pipe → List PEv → Option Pipe
  | p, [] => some p
  | p, e :: es => match pstep p e with
    | none => none
    | some p' => psteps p' es

/-- A client that has not been used. -/
def Pipe.new : Pipe := ⟨false, [], [], []⟩

/-! ### Replies to a datagram client -/

/-- `DatagramProtocolClient.response`, dc 15-19: a future, which a time-out has cancelled or not. -/
inductive Fut where
  | none
  | live (r : Nat)
  | cancelled
  deriving DecidableEq, Repr

/-- The client (the send lock admits one request at a time) and the replies under way. -/
structure Dg where
  response : Fut
  busy : Bool
  net : List Nat
  got : List (Nat × Nat)
  deriving DecidableEq

/-- Events: a request is sent; a reply arrives; the network loses one; the wait times out. -/
inductive GEv where
  | send (r : Nat)
  | deliver (i : Nat)
  | drop (i : Nat)
  | timeout
  deriving DecidableEq

/-- One event. `send`: dc 31-38; the server answers every request with one datagram. `deliver`: `datagram_received`, dc 25-28;
`set_result` of a cancelled future raises, and the line clearing `response` is not reached. `timeout`: `wait_for` cancels
the future, which stays in `response`. -/
def gstep (d : Dg) : GEv → Option Dg
  | .send r => if d.busy then none else some { d with response := .live r, busy := true, net := d.net ++ [r] }
  | .deliver i => match d.net[i]? with
    | none => none
    | some q => match d.response with
      | .none => some { d with net := d.net.eraseIdx i }
      | .cancelled => some { d with net := d.net.eraseIdx i }
      | .live r => some { response := .none, busy := false, net := d.net.eraseIdx i, got := d.got ++ [(r, q)] }
  | .drop i => if i < d.net.length then some { d with net := d.net.eraseIdx i } else none
  | .timeout => match d.response with
    | .live _ => some { d with response := .cancelled, busy := false }
    | _ => none

/-- A sequence of events. -/
def gsteps : Dg → List GEv → Option Dg
  | d, [] => some d
  | d, e :: es => match gstep d e with
    | none => none
    | some d' => gsteps d' es

/-- A client that has not been used. -/
def Dg.new : Dg := ⟨.none, false, [], []⟩

end Verif.Client
