import Mathlib.Algebra.Order.Ring.Rat

/-!
# Model of the connections of a persistent client

`ekosis/clients/persistent_stream_client_base.py` ("pc"): which connections it opens, writes to, reads from and loses, with any number of tasks sending
messages and the heartbeat task. Code between two suspensions is one event. Sockets are replaced by what happens to them: every attempt to connect and
every read has an outcome, chosen freely where the network decides.

A `StreamWriter` that nothing refers to any more closes its connection (`StreamWriter.__del__`, asyncio/streams.py 408-414 of Python 3.11.10). Older
versions of Python that the package admits (pyproject.toml 12: 3.11.3) do not have this; there the connection stays open. Both are modelled.

Not modelled: the time the retry delay takes (any), the size of the socket buffers (a write never suspends, pc 62 does not drain), the contents of lines
other than whether they are an acknowledgement.
-/

namespace Verif.Link

/-- Why connecting failed. `broken`: `ConnectionResetError`, `ConnectionAbortedError`, `BrokenPipeError`. -/
inductive Fail where
  | refused
  | timeout
  | broken
  | other
  deriving DecidableEq, Repr

/-- How `send_message` ended as far as the retry loop decides, or the heartbeat task. -/
inductive End where
  /-- a reply line -/
  | value
  /-- `None`: the loop ended without an attempt that succeeded, pc 135 -/
  | nothing
  | maxRetries
  | nonRetryable
  /-- whatever `__check_connected` raised in line 149 -/
  | os
  | cancelled
  deriving DecidableEq, Repr

/-- Where a task is suspended; `rc` is `retry_count`. -/
inductive Pc where
  /-- created, not yet run (heartbeat task only), pc 101 -/
  | ready
  /-- `open_connection` called from `_send_message` or `__do_heartbeat`, pc 56 from 106 or 72 -/
  | opening (rc : Int)
  /-- `open_connection` called from the retry loop, pc 56 from 149 -/
  | reopening (rc : Int)
  /-- waiting for the read lock, pc 66 -/
  | queued (rc : Int)
  /-- holding the read lock and reading from connection `c`, pc 67 -/
  | reading (rc : Int) (c : Nat)
  /-- `asyncio.sleep(self.retry_delay)`, pc 127 -/
  | pausing (rc : Int)
  /-- `asyncio.sleep(self.__heartbeat_time)` until then, pc 95 -/
  | asleep (u : ℚ)
  | over (e : End)
  deriving DecidableEq

/-- A task: sends a message, or is a heartbeat task. -/
structure Task where
  beat : Bool
  pc : Pc
  deriving DecidableEq

/-- A connection: `mine`, not closed by the client; `peer`, not closed by the server or the network. -/
structure Conn where
  mine : Bool
  peer : Bool
  deriving DecidableEq

/-- Parameters: `max_retries`, `heartbeat_period`, and whether a dropped writer closes its connection. -/
structure Cfg where
  max : Int
  period : ℚ
  drops : Bool

/-- pc 33-41 and cb 31; `cur`: the connection of `__reader` and `__writer`; `conns`: all connections made, in order; `lock` and `queue`: the read lock;
`sent`: what was written, newest first, as the connection and the task that wrote. -/
structure St where
  now : ℚ
  lastSend : ℚ
  connected : Bool
  success : Bool
  cur : Option Nat
  conns : List Conn
  lock : Option Nat
  queue : List Nat
  heart : Option Nat
  tasks : List Task
  sent : List (Nat × Nat)

/-- pc 24-41. -/
def new (now : ℚ) : St := ⟨now, 0, false, false, none, [], none, [], none, [], []⟩

/-- Task `t` is suspended at `pc`, or has ended. -/
def St.goto (s : St) (t : Nat) (pc : Pc) : St := { s with tasks := s.tasks.modify t fun x => { x with pc := pc } }

/-- The connection is closed by the client. -/
def shut (l : List Conn) (c : Nat) : List Conn := l.modify c fun x => { x with mine := false }

/-- pc 56-57: a connection has been made and replaces the previous one, whose writer is dropped. -/
def St.opened (cfg : Cfg) (s : St) : St :=
  let conns := match s.cur with
    | some c => if cfg.drops then shut s.conns c else s.conns
    | none => s.conns
  { s with conns := conns ++ [⟨true, true⟩], cur := some s.conns.length, connected := true }

/-- pc 60-67 for task `t`: write, then read or wait for the lock. The write lock is free: nobody suspends while holding it. -/
def St.writeRead (s : St) (t : Nat) (rc : Int) : St :=
  match s.cur with
  | none => s.goto t (.over .nonRetryable) -- `None` has no attribute `write`
  | some c =>
    let s := { s with sent := (c, t) :: s.sent }
    if s.lock.isNone && s.queue.isEmpty then { s with lock := some t }.goto t (.reading rc c)
    else { s with queue := s.queue ++ [t] }.goto t (.queued rc)

/-- pc 104-112, 70-78: `__check_connected`, then write and read. -/
def St.exchange (s : St) (t : Nat) (rc : Int) : St :=
  if s.connected then s.writeRead t rc else s.goto t (.opening rc)

/-- The condition of the retry loop, pc 135. -/
def St.loop (cfg : Cfg) (s : St) (t : Nat) (rc : Int) : St :=
  if rc < cfg.max ∧ s.success = false then s.exchange t rc else s.goto t (.over .nothing)

/-- `__do_retry_logic`, pc 122-128. -/
def St.retry (cfg : Cfg) (s : St) (t : Nat) (rc : Int) : St :=
  if rc + 1 ≥ cfg.max then s.goto t (.over .maxRetries) else s.goto t (.pausing (rc + 1))

/-- pc 148-149: the connection is given up, a new one is asked for. -/
def St.giveUp (s : St) (t : Nat) (rc : Int) : St := { s with connected := false }.goto t (.reopening rc)

/-- `__heartbeat_check` from the head of its loop to the next suspension, pc 91-95. -/
def St.beat (cfg : Cfg) (s : St) (t : Nat) : St :=
  if s.lastSend < s.now - cfg.period then s.exchange t 0 else s.goto t (.asleep (s.now + cfg.period))

/-- There is a heartbeat task and it is not done, pc 99. -/
def St.heartRuns (s : St) : Bool :=
  match s.heart with
  | none => false
  | some h => match s.tasks[h]? with
    | some ⟨_, .over _⟩ => false
    | some _ => true
    | none => false

/-- `cb send_message` up to the first suspension, cb 73-77 and pc 98-101, 131-135: a heartbeat task is made if there is none that runs. -/
def St.send (cfg : Cfg) (s : St) : St :=
  let s := { s with success := false }
  let s := if s.heartRuns then s else { s with heart := some s.tasks.length, tasks := s.tasks ++ [⟨true, .ready⟩] }
  let s' : St := { s with tasks := s.tasks ++ [⟨false, .ready⟩] }
  s'.loop cfg s.tasks.length 0

/-- What a read leads to. `line ack`: a line, which is an acknowledgement or not. -/
inductive Read where
  | line (ack : Bool)
  /-- nothing, or a line that is cut off -/
  | eof
  | timeout
  | broken
  deriving DecidableEq, Repr

/-- Events: time passes; a message is sent; the heartbeat task runs for the first time, or its sleep ends; the sleep of a retry ends; connecting
succeeds or fails; the first task waiting for the read lock gets it; a read ends; a task is cancelled; the server or the network closes a connection;
`close_connection` is called. -/
inductive Label where
  | tick (d : ℚ)
  | send
  | wake (t : Nat)
  | resume (t : Nat)
  | opened (t : Nat)
  | failed (t : Nat) (f : Fail)
  | grant
  | read (t : Nat) (r : Read)
  | cancel (t : Nat)
  | drop (c : Nat)
  | close
  deriving DecidableEq

/-- A read ends, pc 78-87, 112-119, 137-152; the lock is released by then. -/
def St.readEnds (cfg : Cfg) (s : St) (t : Nat) (beat : Bool) (rc : Int) : Read → St
  | .line ack =>
    if beat then
      if ack then { s with lastSend := s.now }.goto t (.asleep (s.now + cfg.period))
      else { s with connected := false }.goto t (.asleep (s.now + cfg.period))
    else { s with lastSend := s.now, success := true }.goto t (.over .value)
  | .eof =>
    if beat then { s with connected := false }.goto t (.asleep (s.now + cfg.period))
    else s.giveUp t rc
  | .timeout => if beat then s.goto t (.over .os) else s.retry cfg t rc
  | .broken => if beat then s.goto t (.over .os) else s.giveUp t rc

/-- Connecting fails, pc 71-74, 105-108, 140-152. -/
def St.openFails (cfg : Cfg) (s : St) (t : Nat) (beat : Bool) (rc : Int) (f : Fail) : St :=
  if beat then
    match f with
    | .refused => s.goto t (.asleep (s.now + cfg.period))
    | _ => s.goto t (.over .os)
  else
    match f with
    | .timeout => s.retry cfg t rc
    | .broken => s.giveUp t rc
    | _ => s.goto t (.over .nonRetryable)

/-- A read finds the end of the stream, or an error, only on a connection that one of the two sides has closed. -/
def St.possible (s : St) (c : Nat) : Read → Bool
  | .line _ => true
  | .timeout => true
  | _ => match s.conns[c]? with
    | some x => !(x.mine && x.peer)
    | none => false

/-- One event; `none` when it is not possible. -/
def step (cfg : Cfg) (s : St) : Label → Option St
  | .tick d => if 0 ≤ d then some { s with now := s.now + d } else none
  | .send => some (s.send cfg)
  | .wake t => match s.tasks[t]? with
    | some ⟨true, .ready⟩ => some (s.beat cfg t)
    | some ⟨true, .asleep u⟩ => if u ≤ s.now then some (s.beat cfg t) else none
    | _ => none
  | .resume t => match s.tasks[t]? with
    | some ⟨false, .pausing rc⟩ => some (s.loop cfg t rc)
    | _ => none
  | .opened t => match s.tasks[t]? with
    | some ⟨_, .opening rc⟩ => some ((s.opened cfg).writeRead t rc)
    | some ⟨false, .reopening rc⟩ => some ((s.opened cfg).retry cfg t rc)
    | _ => none
  | .failed t f => match s.tasks[t]? with
    | some ⟨b, .opening rc⟩ => some (s.openFails cfg t b rc f)
    | some ⟨false, .reopening _⟩ => some (s.goto t (.over .os))
    | _ => none
  | .grant => match s.lock, s.queue, s.cur with
    | none, t :: q, some c => match s.tasks[t]? with
      | some ⟨_, .queued rc⟩ => some ({ s with lock := some t, queue := q }.goto t (.reading rc c))
      | _ => none
    | _, _, _ => none
  | .read t r => match s.tasks[t]? with
    | some ⟨b, .reading rc c⟩ =>
      if s.possible c r then some ({ s with lock := none }.readEnds cfg t b rc r) else none
    | _ => none
  | .cancel t => match s.tasks[t]? with
    | some ⟨_, .over _⟩ => none
    | some ⟨_, .reading _ _⟩ => some ({ s with lock := none }.goto t (.over .cancelled))
    | some _ => some ({ s with queue := s.queue.filter (· ≠ t) }.goto t (.over .cancelled))
    | none => none
  | .drop c => if c < s.conns.length then some { s with conns := s.conns.modify c fun x => { x with peer := false } } else none
  | .close => match s.cur with -- pc 49-51
    | some c => some { s with conns := shut s.conns c }
    | none => none

/-- A sequence of events. -/
def steps (cfg : Cfg) : St → List Label → Option St
  | s, [] => some s
  | s, l :: ls => match step cfg s l with
    | none => none
    | some s' => steps cfg s' ls

end Verif.Link
