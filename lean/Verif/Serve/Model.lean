/-!
# Model of servers whose endpoints take their time

`ekosis/servers/stream_server_base.py` ("ss") and `ekosis/servers/json/udp.py` ("ud"), seen as tasks: which of them wait for what. Requests are
numbered; what they contain and what is answered is in `Verif.Server` and `Verif.Stream`. The code of an endpoint runs as long as it likes,
suspended at its own `await`s; it may be waiting for the response to another request (`needs`), sent to the same application.

`asyncio.Lock` is fair: whoever finds it taken, or others waiting, is put at the end of the queue (asyncio/locks.py 93-127), and tasks start in the
order they were created.

Simplifications: no cancellation, no lost connections, no timeouts of those who wait; heartbeats (answered at once, ud 36-37, ss 35-36) are not shown;
every endpoint that ends leads to a response (an exception of an endpoint does so too, `Verif.Server`).
-/

namespace Verif.Serve

/-- The endpoint of request `r` can end: it waits for no other request, or that one has been answered. -/
def mayEnd (needs : Nat → Option Nat) (answered : Nat → Bool) (r : Nat) : Bool :=
  match needs r with
  | none => true
  | some q => answered q

/-! ### Datagrams -/

/-- The tasks of `do_response` (ud 28-31): created and not yet run; waiting for `__write_lock`; the one that holds it and runs the endpoint; `sent`:
the requests that have been answered, oldest first. -/
structure Udp where
  created : List Nat
  queue : List Nat
  holder : Option Nat
  sent : List Nat
  deriving DecidableEq

/-- No datagram yet. -/
def Udp.new : Udp := ⟨[], [], none, []⟩

/-- Events: a datagram arrives (ud 34-40); the oldest task that has not run starts, up to the lock (ud 29); the first task in the queue gets the lock;
the endpoint of the task that holds the lock ends, the response is sent and the lock released (ud 30-31). -/
inductive UEv where
  | datagram (r : Nat)
  | start
  | grant
  | finish
  deriving DecidableEq, Repr

/-- One event; `none` when it is not possible. `needs r`: the request whose response the endpoint of `r` waits for. -/
def ustep (needs : Nat → Option Nat) (u : Udp) : UEv → Option Udp
  | .datagram r => some { u with created := u.created ++ [r] }
  | .start => match u.created with
    | [] => none
    | r :: rest =>
      if u.holder.isNone && u.queue.isEmpty then some { u with created := rest, holder := some r }
      else some { u with created := rest, queue := u.queue ++ [r] }
  | .grant => match u.holder, u.queue with
    | none, r :: rest => some { u with holder := some r, queue := rest }
    | _, _ => none
  | .finish => match u.holder with
    | none => none
    | some r =>
      if mayEnd needs (fun q => u.sent.contains q) r then some { u with holder := none, sent := u.sent ++ [r] }
      else none

/-- A sequence of events. -/
def usteps (needs : Nat → Option Nat) : Udp → List UEv → Option Udp
  | u, [] => some u
  | u, e :: es => match ustep needs u e with
    | none => none
    | some u' => usteps needs u' es

/-! ### Connections -/

/-- The task of `_handle_request` of one connection (ss 22-46): lines that have arrived, the request whose endpoint runs, requests answered. -/
structure Lane where
  inbox : List Nat
  current : Option Nat
  sent : List Nat
  deriving DecidableEq

/-- All connections, by number; those nobody opened have nothing in them. -/
abbrev Streams := Nat → Lane

/-- No line yet. -/
def Streams.new : Streams := fun _ => ⟨[], none, []⟩

/-- The state with connection `c` replaced. -/
def Streams.put (s : Streams) (c : Nat) (l : Lane) : Streams := fun i => if i = c then l else s i

/-- Events: on connection `c` a line arrives; the task reads the next line and calls the endpoint (ss 27-38); the endpoint ends and its response is
written (ss 38-42). -/
inductive SEv where
  | line (c r : Nat)
  | take (c : Nat)
  | finish (c : Nat)
  deriving DecidableEq, Repr

/-- The connection an event takes place on. -/
def SEv.lane : SEv → Nat
  | .line c _ => c
  | .take c => c
  | .finish c => c

/-- What one event does to its connection; `answered q`: request `q` has been answered. -/
def lstep (needs : Nat → Option Nat) (answered : Nat → Bool) (l : Lane) : SEv → Option Lane
  | .line _ r => some { l with inbox := l.inbox ++ [r] }
  | .take _ => match l.current, l.inbox with
    | none, r :: rest => some { l with current := some r, inbox := rest }
    | _, _ => none
  | .finish _ => match l.current with
    | none => none
    | some r =>
      if mayEnd needs answered r then some { l with current := none, sent := l.sent ++ [r] }
      else none

/-- One event; `none` when it is not possible. `conns`: the numbers of the connections (for looking up answered requests). -/
def sstep (conns : List Nat) (needs : Nat → Option Nat) (s : Streams) (e : SEv) : Option Streams :=
  match lstep needs (fun q => conns.any fun c => (s c).sent.contains q) (s e.lane) e with
  | none => none
  | some l => some (s.put e.lane l)

/-- A sequence of events. -/
def ssteps (conns : List Nat) (needs : Nat → Option Nat) : Streams → List SEv → Option Streams
  | s, [] => some s
  | s, e :: es => match sstep conns needs s e with
    | none => none
    | some s' => ssteps conns needs s' es

end Verif.Serve
