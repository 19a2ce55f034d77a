import Verif.Pending.Model

/-!
# Model of the life of an application (ekosis/application_base.py)

`with MyApplication() as app: app.start()`: entering and leaving the context, starting, and shutting down.

A signal may arrive at any moment and any number of times; its handler raises `TerminationSignalException` (application_base.py 91-97). Here it
arrives before one of the steps marked with `tick`; moments in between are not told apart. In particular opening a queue and writing a
queue to its file are single steps (for what a queue's file holds in the middle of these see `Verif.Queue`, C08).
The buffered endpoints and the buffered senders are one list, endpoints first: that is the order in which they are set up (282-283) and
shut down (125-126), and setting up and shutting down are the same code in both classes (buffered_handler_base.py 139-171,
buffered_sender_base.py 67-79, 190-205). Logging is left out, apart from the last flush.
`Q` are the queues.
-/

namespace Verif.Life

open Verif.Py

variable {Q : Type}

/-- What may be raised. -/
inductive Exc where
  | termination
  | attributeError
  | invalidState
  /-- an exception of `queue.shut_down()` -/
  | saving (e : PyErr)
  /-- any other exception: of the application's code, of opening a queue, of a task -/
  | other (n : Nat)
  deriving DecidableEq, Repr

/-- The three servers. -/
inductive Which where
  | tcp
  | udp
  | uds
  deriving DecidableEq, Repr

/-- A server: `_running`, and whether `_server` is set. `UDPServer` has no `_server`. -/
structure Srv where
  running : Bool
  server : Bool
  deriving DecidableEq, Repr

/-- How far a server's task (`__start_tcp_server` and so on, application_base.py 236-261) has got when the tasks are cancelled. -/
inductive Phase where
  /-- not yet started -/
  | idle
  /-- in `await asyncio.start_server(...)`, tcp.py 39 (uds.py 44) -/
  | entering
  /-- `start_server` has raised -/
  | failed
  /-- serving -/
  | serving
  deriving DecidableEq, Repr

/-- A buffered endpoint or sender: `queue`, `on_shutdown_future` (`some true` is done), `running`, `shutdown`; buffered_handler_base.py 42-52. -/
structure Comp (Q : Type) where
  queue : Option Q
  future : Option Bool
  running : Bool
  shutdown : Bool
  deriving DecidableEq, Repr

/-- As constructed. -/
def Comp.fresh : Comp Q := { queue := none, future := none, running := false, shutdown := false }

/-- What can be seen from outside. -/
inductive Ev where
  | opened (i : Nat)
  | saved (i : Nat)
  | stopped (w : Which)
  | flushed
  deriving DecidableEq, Repr

/-- Before and after the application begins to stop. -/
inductive Stage where
  | up
  | down
  deriving DecidableEq, Repr

/-- Clock (steps in this stage) and what has happened. -/
structure Sys where
  stage : Stage
  clock : Nat
  log : List Ev
  deriving DecidableEq, Repr

/-- What the application's surroundings and code do. -/
structure Env (Q : Type) where
  /-- a signal arrives at this step -/
  signal : Stage → Nat → Bool
  /-- `PendingQueue(...)` -/
  opens : Nat → Except Exc Q
  /-- `setup_tasks` of the application -/
  tasks : Option Exc
  /-- where the servers' tasks are when `gather` raises -/
  phase : Which → Phase
  /-- the exception with which `gather` ends -/
  ending : Exc
  /-- what has become of a queue when the last task has ended -/
  work : Nat → Q → Q
  /-- whether a worker is still in the middle of an attempt if the cancelling of the tasks is interrupted -/
  busy : Nat → Bool
  /-- `queue.shut_down()` -/
  save : Q → Except PyErr Unit × Q

/-- The application. -/
structure App (Q : Type) where
  /-- `__running` -/
  context : Bool
  tcp : Option Srv
  udp : Option Srv
  uds : Option Srv
  comps : List (Comp Q)
  sys : Sys

/-- Does a signal arrive now? -/
def tick (E : Env Q) (s : Sys) : Bool × Sys := (E.signal s.stage s.clock, { s with clock := s.clock + 1 })

/-- Append to the log. -/
def Sys.say (s : Sys) (e : Ev) : Sys := { s with log := s.log ++ [e] }

/-! ## Starting -/

/-- `setup`, buffered_handler_base.py 139-155, buffered_sender_base.py 190-205: open the queue, start the worker, make the future. -/
def setupOne (E : Env Q) (i : Nat) (c : Comp Q) (s : Sys) : Option Exc × Comp Q × Sys :=
  let (sig, s) := tick E s
  if sig then (some .termination, c, s)
  else match E.opens i with
    | .error e => (some e, c, s)
    | .ok q =>
      let c := { c with queue := some q }
      let (sig, s) := tick E (s.say (.opened i))
      if sig then (some .termination, c, s)
      else (none, { c with future := some false }, s)

/-- `__setup_buffered_handlers`, `__setup_buffered_senders`, application_base.py 186-204, from component `i` on. -/
def setupAll (E : Env Q) (i : Nat) : List (Comp Q) → Sys → Option Exc × List (Comp Q) × Sys
  | [], s => (none, [], s)
  | c :: cs, s =>
    match setupOne E i c s with
    | (some e, c, s) => (some e, c :: cs, s)
    | (none, c, s) =>
      let r := setupAll E (i + 1) cs s
      (r.1, c :: r.2.1, r.2.2)

/-- A server when `gather` raises: tcp.py 16-24, 44-49. For UDP nothing is awaited while entering (udp.py 53-55). -/
def Phase.reached (w : Which) : Phase → Srv → Srv
  | .idle, v => v
  | .entering, v => { v with running := true, server := w = .udp }
  | .failed, v => { v with running := false }
  | .serving, _ => { running := true, server := true }

/-- A server's task is cancelled: while serving, `__aexit__` stops the server (tcp.py 27-28, 31-35). While entering, `CancelledError` is not an
`Exception`, so that `_running` stays true (tcp.py 16-24), and `__aexit__` is not called. -/
def Srv.cancelled (v : Srv) : Srv := if v.server then { v with running := false } else v

/-- `__start`, application_base.py 279-302. It does not return: the statistics task goes on until it is cancelled (statistics_keeper.py
152-166). -/
def startBody (E : Env Q) (a : App Q) : Exc × App Q :=
  let (r, cs, s) := setupAll E 0 a.comps a.sys
  let a := { a with comps := cs, sys := s }
  match r with
  | some e => (e, a)
  | none =>
    let (sig, s) := tick E a.sys
    if sig then (.termination, { a with sys := s })
    else match E.tasks with
      | some e => (e, { a with sys := s })
      | none =>
        (E.ending, { a with
          sys := s.say .flushed,
          tcp := a.tcp.map ((E.phase .tcp).reached .tcp),
          udp := a.udp.map ((E.phase .udp).reached .udp),
          uds := a.uds.map ((E.phase .uds).reached .uds) })

/-- The tasks have ended: what they did to a component's queue. -/
def Comp.worked (E : Env Q) (i : Nat) (running : Bool) (c : Comp Q) : Comp Q :=
  match c.queue with
  | none => c
  | some q => { c with queue := some (E.work i q), running := running }

/-- All components from `i` on. -/
def workedAll (E : Env Q) (interrupted : Bool) (i : Nat) : List (Comp Q) → List (Comp Q)
  | [] => []
  | c :: cs => c.worked E i (interrupted && E.busy i) :: workedAll E interrupted (i + 1) cs

/-- `asyncio.run(self.__start())`, application_base.py 224: when the coroutine ends, `asyncio.run` cancels all tasks and waits for them
(asyncio/runners.py `_cancel_all_tasks`). A signal during this wait leaves them where they are. -/
def run (E : Env Q) (a : App Q) : Exc × App Q :=
  let (e, a) := startBody E a
  let (sig, s) := tick E { a.sys with stage := .down, clock := 0 }
  let a := { a with sys := s, comps := workedAll E sig 0 a.comps }
  if sig then (.termination, a)
  else (e, { a with tcp := a.tcp.map Srv.cancelled, udp := a.udp.map Srv.cancelled, uds := a.uds.map Srv.cancelled })

/-- `start`, application_base.py 219-224. -/
def start (E : Env Q) (a : App Q) : Option Exc × App Q :=
  if a.context then
    let r := run E a
    (some r.1, r.2)
  else
    let (sig, s) := tick E a.sys
    if sig then (some .termination, { a with sys := s }) else (none, { a with sys := s.say .flushed })

/-! ## Stopping -/

/-- `stop` of a server: tcp.py 31-35, udp.py 62-65, uds.py 36-40. -/
def Srv.stop (w : Which) (v : Srv) (s : Sys) : Option Exc × Srv × Sys :=
  if v.running then
    let v := { v with running := false }
    if w ≠ .udp ∧ v.server = false then (some .attributeError, v, s) else (none, v, s.say (.stopped w))
  else (none, v, s)

/-- `__stop_tcp_server` and so on, application_base.py 242-266. -/
def stopServer (E : Env Q) (w : Which) (v : Option Srv) (s : Sys) : Option Exc × Option Srv × Sys :=
  let (sig, s) := tick E s
  if sig then (some .termination, v, s)
  else match v with
    | none => (none, none, s)
    | some v =>
      let r := v.stop w s
      (r.1, some r.2.1, r.2.2)

/-- `__stop_servers`, application_base.py 269-272. -/
def stopServers (E : Env Q) (a : App Q) : Option Exc × App Q :=
  match stopServer E .tcp a.tcp a.sys with
  | (some e, v, s) => (some e, { a with tcp := v, sys := s })
  | (none, v, s) =>
    let a := { a with tcp := v, sys := s }
    match stopServer E .udp a.udp a.sys with
    | (some e, v, s) => (some e, { a with udp := v, sys := s })
    | (none, v, s) =>
      let a := { a with udp := v, sys := s }
      match stopServer E .uds a.uds a.sys with
      | (r, v, s) => (r, { a with uds := v, sys := s })

/-- `__shut_down_check`, buffered_handler_base.py 165-171, buffered_sender_base.py 73-79. -/
def shutDownCheck (E : Env Q) (i : Nat) (c : Comp Q) (s : Sys) : Option Exc × Comp Q × Sys :=
  if !c.running && c.shutdown then
    match c.queue with
    | none => (some .attributeError, c, s)
    | some q =>
      match E.save q with
      | (.error e, q) => (some (.saving e), { c with queue := some q }, s)
      | (.ok _, q) =>
        let c := { c with queue := some q }
        let s := s.say (.saved i)
        match c.future with
        | none => (some .attributeError, c, s)
        | some true => (some .invalidState, c, s)
        | some false => (none, { c with future := some true }, s)
  else (none, c, s)

/-- `shut_down`, buffered_handler_base.py 158-162, buffered_sender_base.py 67-70. -/
def shutOne (E : Env Q) (i : Nat) (c : Comp Q) (s : Sys) : Option Exc × Comp Q × Sys :=
  let (sig, s) := tick E s
  if sig then (some .termination, c, s) else shutDownCheck E i { c with shutdown := true } s

/-- `__shut_down_buffered_handlers`, `__shut_down_buffered_senders`, application_base.py 207-216, from component `i` on. -/
def shutAll (E : Env Q) (i : Nat) : List (Comp Q) → Sys → Option Exc × List (Comp Q) × Sys
  | [], s => (none, [], s)
  | c :: cs, s =>
    match shutOne E i c s with
    | (some e, c, s) => (some e, c :: cs, s)
    | (none, c, s) =>
      let r := shutAll E (i + 1) cs s
      (r.1, c :: r.2.1, r.2.2)

/-- `__do_shutdown`, application_base.py 122-128. -/
def doShutdown (E : Env Q) (a : App Q) : Option Exc × App Q :=
  match stopServers E a with
  | (some e, a) => (some e, a)
  | (none, a) =>
    match shutAll E 0 a.comps a.sys with
    | (some e, cs, s) => (some e, { a with comps := cs, sys := s })
    | (none, cs, s) =>
      let (sig, s) := tick E s
      if sig then (some .termination, { a with comps := cs, sys := s })
      else (none, { a with comps := cs, sys := s.say .flushed })

/-! ## The context -/

/-- What the body of the `with` statement does. -/
inductive Action where
  | start
  | stop
  /-- any other code, with the exception it raises -/
  | code (e : Option Exc)

/-- One action; `stop` is application_base.py 227-228. -/
def act (E : Env Q) (a : App Q) : Action → Option Exc × App Q
  | .start => start E a
  | .stop => (none, { a with context := false })
  | .code e =>
    let (sig, s) := tick E a.sys
    (if sig then some .termination else e, { a with sys := s })

/-- The body, up to its first exception. -/
def body (E : Env Q) : List Action → App Q → Option Exc × App Q
  | [], a => (none, a)
  | x :: xs, a =>
    match act E a x with
    | (some e, a) => (some e, a)
    | (none, a) => body E xs a

/-- The beginning of `__exit__`: the application stops, unless it already does. -/
def Sys.goDown (s : Sys) : Sys := match s.stage with
  | .up => { s with stage := .down, clock := 0 }
  | .down => s

/-- `with app: ...`, application_base.py 100-119: `__exit__` returns `True`, so the exception of the body ends here. The result is
the exception that leaves the `with` statement. -/
def life (E : Env Q) (xs : List Action) (a : App Q) : Option Exc × App Q :=
  let r := body E xs { a with context := true }
  doShutdown E { r.2 with sys := r.2.sys.goDown }

/-- An application as constructed, with `n` buffered endpoints and senders. -/
def fresh (tcp udp uds : Bool) (n : Nat) : App Q :=
  let srv (b : Bool) : Option Srv := if b then some { running := false, server := false } else none
  { context := false, tcp := srv tcp, udp := srv udp, uds := srv uds, comps := List.replicate n Comp.fresh,
    sys := { stage := .up, clock := 0, log := [] } }

/-! ## Where a signal strikes

The handler of the signal raises in whatever Python code is running at that moment. The exception passes through the frames of that code. -/

/-- A frame, by what it does with an exception. -/
inductive Frame where
  /-- the application's own code: does it have an `except Exception` that goes on? -/
  | user (catches : Bool)
  /-- `attempt_request`, `route_request` (request_router.py 56-67): `except ApplicationProcessingException` -/
  | router
  /-- `_route_request`, server_base.py 33-77: `except Exception`, answered with status 999 -/
  | routeRequest
  /-- `_handle_request`, stream_server_base.py 22-46: `except ConnectionResetError` -/
  | connection
  /-- `__do_queue_processing`, `_process_queue`, buffered_handler_base.py 179-207: `finally` only -/
  | handlerWorker
  /-- the `try` of buffered_sender_base.py 93-104: `except Exception`, the message goes to the error queue -/
  | senderTry
  /-- `__process_send_queue`, buffered_sender_base.py 107-113: `finally` only -/
  | senderWorker
  deriving DecidableEq, Repr

/-- What is below the frames. -/
inductive Root where
  /-- the event loop itself: waiting for events, or between two tasks -/
  | loop
  /-- a task that `gather` waits for (application_base.py 285-302), or `__start` itself -/
  | gathered
  /-- any other task: connections, datagrams, workers, pushes. `Task.__step` keeps the exception (asyncio/tasks.py) and nobody asks for it. -/
  | background
  deriving DecidableEq, Repr

/-- What becomes of the signal. -/
inductive Fate where
  /-- `asyncio.run` raises it: the application stops -/
  | terminates
  /-- swallowed by the application's code -/
  | swallowed
  /-- the request is answered with this status -/
  | answered (status : Nat)
  /-- the message is put into the error queue -/
  | toErrorQueue
  /-- the task ends -/
  | taskLost
  deriving DecidableEq, Repr

/-- The exception passes through the frames, innermost first. -/
def strike : List Frame → Root → Fate
  | [], .loop => .terminates
  | [], .gathered => .terminates
  | [], .background => .taskLost
  | .user true :: _, _ => .swallowed
  | .user false :: fs, r => strike fs r
  | .router :: fs, r => strike fs r
  | .routeRequest :: _, _ => .answered 999
  | .connection :: fs, r => strike fs r
  | .handlerWorker :: fs, r => strike fs r
  | .senderTry :: _, _ => .toErrorQueue
  | .senderWorker :: fs, r => strike fs r

/-- What the application is doing when the signal arrives. -/
inductive Doing where
  /-- waiting for something to happen -/
  | waiting
  /-- one of the tasks of `gather` -/
  | ownTask
  /-- in a handler or middleware of a request, on a stream -/
  | streamRequest
  /-- the same, on a datagram -/
  | datagramRequest
  /-- reading, decoding, encoding or writing on a connection -/
  | connectionItself
  /-- in the function or middleware of a buffered endpoint -/
  | processing
  /-- in the client of a buffered sender -/
  | sending
  /-- the worker of a buffered sender, outside its `try` -/
  | sendingItself
  /-- pushing a request onto the queue (buffered_handler_base.py 227) -/
  | pushing
  deriving DecidableEq, Repr

/-- The frames of the framework at that moment, below the application's own. -/
def Doing.frames : Doing → List Frame × Root
  | .waiting => ([], .loop)
  | .ownTask => ([], .gathered)
  | .streamRequest => ([.router, .routeRequest, .connection], .background)
  | .datagramRequest => ([.router, .routeRequest], .background)
  | .connectionItself => ([.connection], .background)
  | .processing => ([.handlerWorker], .background)
  | .sending => ([.senderTry, .senderWorker], .background)
  | .sendingItself => ([.senderWorker], .background)
  | .pushing => ([], .background)

/-- The fate of a signal that arrives while the application does `d`, in code of its own with frames `us`. -/
def fate (us : List Bool) (d : Doing) : Fate := strike (us.map Frame.user ++ d.frames.1) d.frames.2

end Verif.Life
