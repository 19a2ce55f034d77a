import Verif.Py.Basic

/-!
# Model of the connections of transient clients

`ekosis/clients/stream_client_base.py` ("sc") and `send_message` of `ekosis/clients/client_base.py` ("cb"): which connections are opened, what is written to
them and when they are closed, with any number of calls of `send_message` at once on one client. Code between two suspensions is one event. Sockets are
replaced by what happens to them: every attempt to connect, read or close has an outcome, chosen freely where the network decides.

A connection the code does not close is closed when its `StreamWriter` is collected (`StreamWriter.__del__`, asyncio/streams.py 408-414 of Python 3.11.10);
older versions of Python that the package admits (pyproject.toml 12: 3.11.3) leave it open, because the event loop refers to its transport.

Not modelled: the time anything takes, the contents of messages and responses.
-/

namespace Verif.Transient

/-- An exception, as sc 55-68 tells them apart. `retryable`: `TimeoutError`, `ConnectionResetError`, `ConnectionAbortedError`, `BrokenPipeError`. -/
inductive Fail where
  | retryable
  | other
  deriving DecidableEq, Repr

/-- How `_send_message_retry_loop` ended. -/
inductive End where
  /-- a response, sc 54 -/
  | response
  /-- `None`: the condition of the loop was false, sc 50 -/
  | nothing
  | maxRetries
  | nonRetryable
  /-- the task was cancelled -/
  | cancelled
  deriving DecidableEq, Repr

/-- Where a call is suspended; `rc` is `retry_count`, `c` the number of the connection. -/
inductive Pc where
  /-- sc 35 -/
  | opening (rc : Int)
  /-- sc 38 -/
  | reading (rc : Int) (c : Nat)
  /-- sc 44 -/
  | closing (rc : Int) (c : Nat)
  /-- sc 66 -/
  | pausing (rc : Int)
  | over (e : End)
  deriving DecidableEq, Repr

/-- A connection, numbered in the order of opening. Calls and their messages are numbered in the order of the calls. -/
structure Conn where
  owner : Nat
  written : List Nat
  /-- a response was read from it -/
  answered : Bool
  isOpen : Bool
  deriving DecidableEq, Repr

/-- The client: `self.success` (cb 31), the calls and the connections so far. -/
structure St where
  success : Bool
  calls : List Pc
  conns : List Conn
  deriving DecidableEq, Repr

/-- A client as constructed, cb 23-31. -/
def new : St := { success := false, calls := [], conns := [] }

def St.goto (s : St) (i : Nat) (pc : Pc) : St := { s with calls := s.calls.set i pc }

/-- The condition of the loop, sc 50, and sc 35 up to its suspension. `max` is `max_retries`. -/
def St.loop (max : Int) (s : St) (i : Nat) (rc : Int) : St :=
  if rc < max ∧ s.success = false then s.goto i (.opening rc) else s.goto i (.over .nothing)

/-- The `except` clauses, sc 55-68. -/
def St.raised (max : Int) (s : St) (i : Nat) (rc : Int) : Fail → St
  | .retryable => if rc + 1 ≥ max then s.goto i (.over .maxRetries) else s.goto i (.pausing (rc + 1))
  | .other => s.goto i (.over .nonRetryable)

/-- `writer.close()` after a response, sc 43. -/
def Conn.close (c : Conn) : Conn := { c with answered := true, isOpen := false }

/-- Whether something that runs refers to connection `c`: a call that reads from it or closes it; or, simplified, one that waits before its next attempt (also after a connection could not be opened), which it does
inside the `except` clause (sc 66), so that the exception, its traceback and the frame of sc 34-45 are still there. -/
def St.refers (s : St) (c : Nat) : Bool :=
  s.calls.any (fun pc => match pc with
    | .reading _ c' => c' == c
    | .closing _ c' => c' == c
    | _ => false) ||
  match s.conns[c]? with
  | none => false
  | some conn =>
    (match s.calls[conn.owner]? with
      | some (.pausing _) => true
      | _ => false) &&
    (s.conns.drop (c + 1)).all (fun d => d.owner != conn.owner)

/-- Events. -/
inductive Ev where
  /-- `send_message` is called, cb 65-77 -/
  | send
  /-- `open_connection` gives a connection; the message is written, sc 35-36 -/
  | opened (i : Nat)
  | openFails (i : Nat) (f : Fail)
  /-- `readline` gives text, sc 38-43 -/
  | line (i : Nat)
  /-- `readline` gives bytes that are not text, sc 42 -/
  | undecodable (i : Nat)
  /-- the server closed the connection, sc 39-40 -/
  | empty (i : Nat)
  /-- the read fails or times out, sc 38 -/
  | readFails (i : Nat) (f : Fail)
  /-- `wait_closed` returns, sc 44-45 and 53-54 -/
  | closed (i : Nat)
  /-- `wait_closed` raises what the connection ended with, sc 44 -/
  | closeFails (i : Nat) (f : Fail)
  /-- the retry delay is over, sc 66 -/
  | resume (i : Nat)
  | cancel (i : Nat)
  /-- a writer nothing refers to is collected -/
  | collected (c : Nat)
  deriving DecidableEq, Repr

/-- One event; `none` when it is not possible. -/
def step (max : Int) (s : St) : Ev → Option St
  | .send =>
    let s' : St := { s with success := false, calls := s.calls ++ [.opening 0] }
    some (s'.loop max s.calls.length 0)
  | .opened i => match s.calls[i]? with
    | some (.opening rc) =>
      let s' : St := { s with conns := s.conns ++ [⟨i, [i], false, true⟩] }
      some (s'.goto i (.reading rc s.conns.length))
    | _ => none
  | .openFails i f => match s.calls[i]? with
    | some (.opening rc) => some (s.raised max i rc f)
    | _ => none
  | .line i => match s.calls[i]? with
    | some (.reading rc c) =>
      let s' : St := { s with conns := s.conns.modify c Conn.close }
      some (s'.goto i (.closing rc c))
    | _ => none
  | .undecodable i => match s.calls[i]? with
    | some (.reading rc _) => some (s.raised max i rc .other)
    | _ => none
  | .empty i => match s.calls[i]? with
    | some (.reading rc _) => some (s.raised max i rc .other)
    | _ => none
  | .readFails i f => match s.calls[i]? with
    | some (.reading rc _) => some (s.raised max i rc f)
    | _ => none
  | .closed i => match s.calls[i]? with
    | some (.closing _ _) =>
      let s' : St := { s with success := true }
      some (s'.goto i (.over .response))
    | _ => none
  | .closeFails i f => match s.calls[i]? with
    | some (.closing rc _) => some (s.raised max i rc f)
    | _ => none
  | .resume i => match s.calls[i]? with
    | some (.pausing rc) => some (s.loop max i rc)
    | _ => none
  | .cancel i => match s.calls[i]? with
    | some (.over _) => none
    | some _ => some (s.goto i (.over .cancelled))
    | none => none
  | .collected c =>
    if c < s.conns.length ∧ s.refers c = false then
      some { s with conns := s.conns.modify c (fun x => { x with isOpen := false }) }
    else none

/-- A sequence of events. -/
def steps (max : Int) : St → List Ev → Option St
  | s, [] => some s
  | s, e :: es => match step max s e with
    | none => none
    | some s' => steps max s' es

end Verif.Transient
