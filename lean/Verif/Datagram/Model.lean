import Verif.Py.Basic

/-!
# Model of the sockets of datagram clients

`ekosis/clients/datagram_client_base.py` ("dc"): which sockets a client opens, and which replies it returns to whom, with any number of calls of
`send_message` at once on one client. Code between two suspensions is one event. The network loses and reorders datagrams as it likes; the server answers
every request that arrives with one datagram, to the socket it came from.

Simplifications: the send lock (dc 69) is given to any waiting call, not just the first; a reply and the resumption of the call it is for are one event.
The client has no code that closes a socket.
-/

namespace Verif.Datagram

/-- `DatagramProtocolClient.response`, dc 17: a future for the reply to call `r`, which a time-out has cancelled or not. -/
inductive Fut where
  | none
  | live (r : Nat)
  | cancelled
  deriving DecidableEq, Repr

/-- A socket and its `DatagramProtocolClient`, dc 14-18; `net`: the calls whose replies are under way to it. -/
structure Sock where
  response : Fut
  net : List Nat
  deriving DecidableEq, Repr

inductive Fail where
  | timeout
  | other
  deriving DecidableEq, Repr

/-- How `_send_message_retry_loop` ended. -/
inductive End where
  /-- the reply to call `q` -/
  | reply (q : Nat)
  /-- `None`: no attempt was made, dc 75 -/
  | nothing
  | maxRetries
  | nonRetryable
  deriving DecidableEq, Repr

/-- Where a call is suspended; `rc` is `retry_count`. -/
inductive Pc where
  /-- dc 63 -/
  | opening (rc : Int)
  /-- waiting for the send lock, dc 69 -/
  | queued (rc : Int)
  /-- holding it and waiting for the reply on socket `k`, dc 35 from 70 -/
  | waiting (rc : Int) (k : Nat)
  /-- dc 84 -/
  | pausing (rc : Int)
  | over (e : End)
  deriving DecidableEq, Repr

/-- The client, dc 49-57: `initialised`, `protocol`, all sockets it opened, the calls. -/
structure St where
  initialised : Bool
  current : Nat
  socks : List Sock
  calls : List Pc
  deriving DecidableEq, Repr

/-- As constructed, dc 49-57. `current` means nothing before `initialised`. -/
def new : St := { initialised := false, current := 0, socks := [], calls := [] }

def St.goto (s : St) (i : Nat) (pc : Pc) : St := { s with calls := s.calls.set i pc }

/-- The condition of the loop, dc 75, and the beginning of `_send_message`, dc 61-63 and 69. -/
def St.loop (max : Int) (s : St) (i : Nat) (rc : Int) : St :=
  if rc < max then s.goto i (if s.initialised then .queued rc else .opening rc) else s.goto i (.over .nothing)

/-- The `except` clauses, dc 79-86. -/
def St.raised (max : Int) (s : St) (i : Nat) (rc : Int) : Fail → St
  | .timeout => if rc + 1 ≥ max then s.goto i (.over .maxRetries) else s.goto i (.pausing (rc + 1))
  | .other => s.goto i (.over .nonRetryable)

def Pc.isWaiting : Pc → Bool
  | .waiting _ _ => true
  | _ => false

/-- Events. -/
inductive Ev where
  /-- `send_message` is called, client_base.py 65-77 -/
  | send
  /-- `create_datagram_endpoint` returns, dc 63-69 -/
  | opened (i : Nat)
  | openFails (i : Nat) (f : Fail)
  /-- call `i` gets the send lock and sends, dc 69-70 and 31-35 -/
  | acquire (i : Nat)
  /-- the `j`-th reply under way to socket `k` arrives, dc 25-28 -/
  | deliver (k j : Nat)
  /-- it is lost -/
  | drop (k j : Nat)
  /-- `wait_for` cancels the future, dc 35 and 79-84 -/
  | timeout (i : Nat)
  /-- the retry delay is over, dc 84 -/
  | resume (i : Nat)
  deriving DecidableEq, Repr

/-- `send_message` of the protocol, dc 33-34. -/
def Sock.sent (i : Nat) (k : Sock) : Sock := { response := .live i, net := k.net ++ [i] }

/-- `datagram_received`, dc 25-28, for the `j`-th reply: `set_result` of a cancelled future raises, and line 28 is not reached. -/
def Sock.received (j : Nat) (k : Sock) : Sock :=
  { response := match k.response with
      | .live _ => .none
      | r => r
    net := k.net.eraseIdx j }

/-- One event; `none` when it is not possible. -/
def step (max : Int) (s : St) : Ev → Option St
  | .send =>
    let s' : St := { s with calls := s.calls ++ [.over .nothing] }
    some (s'.loop max s.calls.length 0)
  | .opened i => match s.calls[i]? with
    | some (.opening rc) =>
      let s' : St := { s with initialised := true, current := s.socks.length, socks := s.socks ++ [⟨.none, []⟩] }
      some (s'.goto i (.queued rc))
    | _ => none
  | .openFails i f => match s.calls[i]? with
    | some (.opening rc) => some (s.raised max i rc f)
    | _ => none
  | .acquire i => match s.calls[i]? with
    | some (.queued rc) =>
      if s.calls.any Pc.isWaiting then none
      else
        let s' : St := { s with socks := s.socks.modify s.current (Sock.sent i) }
        some (s'.goto i (.waiting rc s.current))
    | _ => none
  | .deliver k j => match s.socks[k]? with
    | none => none
    | some sock => match sock.net[j]? with
      | none => none
      | some q =>
        let s' : St := { s with socks := s.socks.modify k (Sock.received j) }
        some (match sock.response with
          | .live r => s'.goto r (.over (.reply q))
          | _ => s')
  | .drop k j => match s.socks[k]? with
    | none => none
    | some sock => if j < sock.net.length then some { s with socks := s.socks.modify k (fun x => { x with net := x.net.eraseIdx j }) } else none
  | .timeout i => match s.calls[i]? with
    | some (.waiting rc k) =>
      let s' : St := { s with socks := s.socks.modify k (fun x => { x with response := .cancelled }) }
      some (s'.raised max i rc .timeout)
    | _ => none
  | .resume i => match s.calls[i]? with
    | some (.pausing rc) => some (s.loop max i rc)
    | _ => none

/-- A sequence of events. -/
def steps (max : Int) : St → List Ev → Option St
  | s, [] => some s
  | s, e :: es => match step max s e with
    | none => none
    | some s' => steps max s' es

end Verif.Datagram
