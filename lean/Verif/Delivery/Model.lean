import Verif.Buffered.Model
import Verif.Client.Model

/-!
# Model of a buffered sender talking to a buffered endpoint

One application has a buffered sender, `ekosis/sending/buffered_sender_base.py` ("bs"), whose client
(`ekosis/clients/client_base.py` "cb", `stream_client_base.py` "sc", `persistent_stream_client_base.py` "pc",
`datagram_client_base.py` "dc") addresses a buffered endpoint, `ekosis/requests/buffered_handler_base.py` ("bh"), of another
application. The two components are those of `Verif.Buffered`; what the retry loop of the client does after an unsuccessful
try is `Verif.Client.after`. New here is what lies between them: requests and replies under way.

Simplifications. The client object belongs to this sender alone (C45 is about shared ones) and heartbeats are left out (C44
treats them). Messages are read as they were written (C60). The sender's response type accepts the empty answer. Neither
application is stopped (C26, C74 treat stops). Delays are arbitrary: every event may happen at any time it is possible.
-/

namespace Verif.Delivery

open Verif.Py Verif.Buffered Verif.Client

/-- What differs between pairs of applications: the client's kind, its `max_retries`, the texts of its errors, the sender,
the endpoint. -/
structure Setting (K D M S M' R' S' : Type) where
  kind : Kind
  tries : Int
  text : Err → String
  snd : Buffered.Cfg K D M String S
  rcv : Buffered.Cfg K D M' R' S'

/-- Where the sender's call of `send_message` is (C22: there is at most one): not called; in the retry loop with `retry_count`
= `rc`, before writing; waiting for the reply. -/
inductive Phase where
  | idle
  | ready (t : Nat) (rc : Int)
  | waiting (t : Nat) (rc : Int)
  deriving DecidableEq

/-- The two applications and the network. -/
structure Net (K D M S M' R' S' : Type) where
  snd : St K D M String S
  rcv : Handler.HSt K D M' R' S'
  phase : Phase
  /-- number of the connection the client uses; a datagram client keeps its socket -/
  conn : Nat
  /-- requests under way, with the connection they were written to, oldest first -/
  sends : List (Nat × K × D)
  /-- for each request in `rcv.collecting` the connection it came from; `none`: from another client -/
  asking : List (Option Nat)
  /-- replies under way, oldest first: `none` is status SUCCESS, `some e` makes the client raise `e` -/
  replies : List (Nat × Option Err)
  deriving DecidableEq

/-- Events. -/
inductive Label (K D M' R' : Type) where
  /-- anything the sender does but sending -/
  | sender (l : Sender.Label K D String)
  /-- the sender's worker calls `send_message` for the message it holds -/
  | send (t : Nat)
  /-- the client writes the request -/
  | transmit
  /-- the try fails before anything is written -/
  | unsent (a : Attempt)
  /-- the try fails while waiting for the reply -/
  | gone (a : Attempt)
  /-- a request reaches the server; `e` is the error answered if it is turned away -/
  | arrive (i : Nat) (e : Err)
  /-- the endpoint accepts a request -/
  | accept (i : Nat) (m : M')
  /-- a push hook raises -/
  | refuse (i : Nat) (e : Err)
  /-- the client reads a reply -/
  | read (j : Nat)
  | loseRequest (i : Nat)
  | loseReply (j : Nat)
  /-- a request of another client reaches the endpoint -/
  | foreign (k : K) (d : D)
  /-- anything the endpoint does but receiving -/
  | receiver (l : Handler.Label K D M' R')

variable {K D M S M' R' S' : Type} [DecidableEq K]

/-- Both applications start, on any queue files. -/
def Net.start (X : Setting K D M S M' R' S') (q : Pending.Pair K S) (q' : Pending.Pair K S') : Net K D M S M' R' S' where
  snd := Sender.setup X.snd q
  rcv := Handler.setup X.rcv q'
  phase := .idle
  conn := 0
  sends := []
  asking := []
  replies := []

/-- On a stream, what was written first is read first; datagrams overtake each other. -/
def inTurn {α : Type} (kind : Kind) (l : List (Nat × α)) (i c : Nat) : Bool :=
  decide (kind = .datagram) || !((l.take i).map Prod.fst).contains c

/-- A stream server reads the next line of a connection when it has answered the one before (stream_server_base.py); the
datagram server starts a task per datagram. -/
def free (kind : Kind) (asking : List (Option Nat)) (c : Nat) : Bool :=
  decide (kind = .datagram) || !asking.contains (some c)

/-- `send_message` returns or raises: the sender's worker goes on, bs 96-104. -/
def settle (X : Setting K D M S M' R' S') (n : Net K D M S M' R' S') (t : Nat) (x : Except Err Unit) :
    Option (Net K D M S M' R' S') :=
  (Sender.step X.snd n.snd (.finish t (outcomeOf X.text x))).map fun s => { n with snd := s, phase := .idle }

/-- The connection after a failed try: the persistent client takes a new one after a broken or closed one (pc 179-181, 208-216);
the datagram client keeps its socket, the transient client connects for every try anyway. -/
def reconnect (kind : Kind) (conn : Nat) : Attempt → Nat
  | .broken _ => if kind = .persistent then conn + 1 else conn
  | .empty _ => if kind = .persistent then conn + 1 else conn
  | _ => conn

/-- What follows a failed try: another one, or the end of `send_message`, sc 54-68, pc 205-219, dc 70-79. -/
def fail (X : Setting K D M S M' R' S') (n : Net K D M S M' R' S') (t : Nat) (rc : Int) (a : Attempt) :
    Option (Net K D M S M' R' S') :=
  match (after X.kind X.tries rc a).1 with
  | .check rc' => some { n with conn := reconnect X.kind n.conn a, phase := .ready t rc' }
  | .over (.raised e) => settle X { n with conn := reconnect X.kind n.conn a } t (.error e)
  | _ => none

/-- One event; `none` when it is not possible. -/
def step (X : Setting K D M S M' R' S') (n : Net K D M S M' R' S') : Label K D M' R' → Option (Net K D M S M' R' S')
  | .sender l => match l with
    | .finish _ _ => none
    | l => (Sender.step X.snd n.snd l).map fun s => { n with snd := s }
  -- cb 66-76; with `max_retries` ≤ 0 the loop is left at once and `json.loads(None)` raises
  | .send t => match n.phase, n.snd.tasks[t]? with
    | .idle, some (.inFlight _) =>
      if 0 < X.tries then some { n with phase := .ready t 0 } else settle X n t (.error (.py .typeError))
    | _, _ => none
  -- sc 34-36, pc 172-177, dc 36-37
  | .transmit => match n.phase with
    | .ready t rc => match n.snd.tasks[t]? with
      | some (.inFlight e) =>
        let c := if X.kind = .transient then n.conn + 1 else n.conn
        some { n with phase := .waiting t rc, conn := c, sends := n.sends ++ [(c, e.key, e.data)] }
      | _ => none
    | _ => none
  | .unsent a => match n.phase, a with
    | .ready _ _, .reply _ => none
    | .ready t rc, a => fail X n t rc a
    | _, _ => none
  | .gone a => match n.phase, a with
    | .waiting _ _, .reply _ => none
    | .waiting t rc, a => fail X n t rc a
    | _, _ => none
  -- bh 220-226: turned away, or waiting for its push hooks
  | .arrive i e => match n.sends[i]? with
    | some (c, k, d) =>
      if e ≠ .base ∧ inTurn X.kind n.sends i c ∧ free X.kind n.asking c then
        (Handler.step X.rcv n.rcv (.arrive k d)).map fun h =>
          if h.collecting.length = n.rcv.collecting.length then
            { n with rcv := h, sends := n.sends.eraseIdx i, replies := n.replies ++ [(c, some e)] }
          else { n with rcv := h, sends := n.sends.eraseIdx i, asking := n.asking ++ [some c] }
      else none
    | none => none
  | .accept i m => match n.asking[i]? with
    | some o => (Handler.step X.rcv n.rcv (.accept i m)).map fun h =>
        { n with rcv := h, asking := n.asking.eraseIdx i, replies := n.replies ++ o.toList.map fun c => (c, none) }
    | none => none
  | .refuse i e => match n.asking[i]? with
    | some o =>
      if e ≠ .base then (Handler.step X.rcv n.rcv (.refuse i)).map fun h =>
        { n with rcv := h, asking := n.asking.eraseIdx i, replies := n.replies ++ o.toList.map fun c => (c, some e) }
      else none
    | none => none
  -- the client reads from its present connection only: sc 38, pc 84-86; dc 28-31 takes whatever comes
  | .read j => match n.phase, n.replies[j]? with
    | .waiting t _, some (c, a) =>
      if c = n.conn ∧ inTurn X.kind n.replies j c then
        settle X { n with replies := n.replies.eraseIdx j } t (match a with | none => .ok () | some e => .error e)
      else none
    | _, _ => none
  | .loseRequest i => some { n with sends := n.sends.eraseIdx i }
  | .loseReply j => some { n with replies := n.replies.eraseIdx j }
  | .foreign k d => (Handler.step X.rcv n.rcv (.arrive k d)).map fun h =>
      if h.collecting.length = n.rcv.collecting.length then { n with rcv := h }
      else { n with rcv := h, asking := n.asking ++ [none] }
  | .receiver l => match l with
    | .arrive _ _ => none
    | .accept _ _ => none
    | .refuse _ => none
    | l => (Handler.step X.rcv n.rcv l).map fun h => { n with rcv := h }

/-- Several events. -/
def steps (X : Setting K D M S M' R' S') : Net K D M S M' R' S' → List (Label K D M' R') → Option (Net K D M S M' R' S')
  | n, [] => some n
  | n, l :: ls => match step X n l with
    | none => none
    | some n' => steps X n' ls

end Verif.Delivery
