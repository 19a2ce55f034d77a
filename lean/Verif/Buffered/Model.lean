import Verif.Pending.Model

/-!
# Model of buffered endpoints and buffered senders

`ekosis/requests/buffered_handler_base.py` (cited as "bh") and
`ekosis/sending/buffered_sender_base.py` (cited as "bs"). The worker code of the two classes is the same
up to names and is modelled once; the differences are configuration (`Cfg`) and the entry points
(`Handler.step`, `Sender.step`).

Concurrency. asyncio runs one task at a time and switches only where a coroutine really suspends. The
queue coroutines never suspend (pending_queue.py and paginated_queue.py contain no awaitable that waits),
so the only suspension points are user code: the middleware hooks, `process_buffered_request`,
`asyncio.sleep` and `send_data`. A transition of the model is what happens between two suspension points.
Hooks, handler and sleep of one attempt form one suspended period (`Task.inFlight`); its end is the
`Outcome`. Which task runs next is arbitrary.

Simplifications: log texts are dropped; `log` records what the environment can see (it is never read by
the modelled code); `running`/`shutdown` are kept, `on_shutdown_future` is not.
-/

namespace Verif.Buffered

open Verif.Py Verif.Queue Verif.Pending

/-- What can be seen from outside, newest first in `St.log`. -/
inductive Ev (K D M R : Type) where
  /-- in the pending queue when the application started -/
  | found (e : PEntry K D M)
  /-- in the error queue when the application started -/
  | foundFailed (e : EEntry K D M R)
  /-- a request was answered "success" / a message was taken by `enqueue` -/
  | acked (k : K) (d : D) (m : M)
  /-- receiving was paused: the request was refused -/
  | refused (k : K)
  /-- the request was answered with an error -/
  | rejected (k : K)
  /-- the message was handed to hooks and handler, or to the client -/
  | started (e : PEntry K D M)
  | succeeded (k : K)
  | failed (k : K)
  /-- an attempt was ended by an exception that the code does not turn into an outcome -/
  | lost (k : K)
  /-- an operator popped it from the error queue -/
  | popped (k : K)
  /-- an operator cleared the error queue, which held these -/
  | cleared (ks : List K)
  /-- an operator moved these back from the error queue -/
  | requeued (ks : List K)
  deriving DecidableEq

/-- A worker task: created but not started; suspended while a message is handled; finished. -/
inductive Task (K D M : Type) where
  | scheduled
  | inFlight (e : PEntry K D M)
  | done
  deriving DecidableEq

/-- How an attempt ends. Endpoints: `ok` (true result), `retry` (false result), `raise` (exception in a
hook or the handler, or cancellation). Senders: `ok`, `retry` (`ServerBusyException`,
`CommunicationsMaxRetriesReached`), `fatal` (any other `Exception`, with its text), `raise`
(cancellation). -/
inductive Outcome (R : Type) where
  | ok
  | retry
  | fatal (text : R)
  | raise
  deriving DecidableEq

/-- What differs between instances.
`build` is `request_dto_type(**data)` followed by the JSON form of the object (`none`: validation error).
`keep` is the metadata passed on when a message is queued again: all of it in bh 194-196, none in
bs 100-104. -/
structure Cfg (K D M R S : Type) where
  codecs : Codecs K D M R S
  maxRetries : Int
  build : D → Option D
  keep : M → M
  noMeta : M
  /-- the text "Max retries reached." -/
  reason : R

/-- The part of the state that both classes have, bh 41-52, bs 38-48. -/
structure St (K D M R S : Type) where
  pair : Pair K S
  /-- `_processing_paused`, `_sending_paused` -/
  paused : Bool
  running : Bool
  shutdown : Bool
  /-- every worker task ever created -/
  tasks : List (Task K D M)
  /-- `__process_queue_task`, `__send_process_task` -/
  current : Option Nat
  log : List (Ev K D M R)
  deriving DecidableEq

variable {K D M R S : Type} [DecidableEq K]

namespace St

/-- Record something visible. -/
def emit (s : St K D M R S) (e : Ev K D M R) : St K D M R S := { s with log := e :: s.log }

/-- `self.__process_queue_task is None or self.__process_queue_task.done()`, bh 216, bs 63. -/
def noWorker (s : St K D M R S) : Bool :=
  match s.current with
  | none => true
  | some t => match s.tasks[t]? with
    | some .done => true
    | _ => false

/-- `__check_process_queue`, bh 215-217, bs 62-64. -/
def check (s : St K D M R S) : St K D M R S :=
  if s.noWorker then { s with tasks := s.tasks ++ [.scheduled], current := some s.tasks.length } else s

/-- `__shut_down_check`, bh 165-171, bs 73-79. -/
def shutDownCheck (s : St K D M R S) : St K D M R S :=
  if !s.running && s.shutdown then { s with pair := s.pair.shutDown.2 } else s

/-- End of a worker task, the `finally` of bh 205-207, bs 111-113. -/
def endTask (s : St K D M R S) (t : Nat) : St K D M R S :=
  shutDownCheck { s with tasks := s.tasks.set t .done, running := false }

/-- One turn of the loop up to the point where the message is handed over, bh 180-188, bs 88-95. An
exception (failing pop, failing validation) leaves the loop and ends the task. -/
def loop (cfg : Cfg K D M R S) (s : St K D M R S) (t : Nat) : St K D M R S :=
  if !s.paused && s.pair.hasPending then
    match s.pair.pop cfg.codecs with
    | (.error _, q) => endTask { s with pair := q } t
    | (.ok none, q) => endTask { s with pair := q } t
    | (.ok (some e), q) =>
      match cfg.build e.data with
      | none => endTask ({ s with pair := q }.emit (.lost e.key)) t
      | some d => { s with pair := q, tasks := s.tasks.set t (.inFlight { e with data := d }) }.emit
          (.started { e with data := d })
  else endTask s t

/-- First step of a worker task, bh 201-204, bs 107-110. -/
def start (cfg : Cfg K D M R S) (s : St K D M R S) (t : Nat) : Option (St K D M R S) :=
  match s.tasks[t]? with
  | some .scheduled => some (loop cfg { s with running := true } t)
  | _ => none

/-- After queueing a failed message again: next turn of the loop. -/
def afterPush (cfg : Cfg K D M R S) (s : St K D M R S) (t : Nat) (k : K) (p : Except PyErr Unit × Pair K S) :
    St K D M R S :=
  match p with
  | (.error _, q) => endTask ({ s with pair := q }.emit (.lost k)) t
  | (.ok _, q) => loop cfg ({ s with pair := q }.emit (.failed k)) t

/-- The attempt under way in task `t` ends with `o`, bh 189-198, bs 96-104. -/
def finish (cfg : Cfg K D M R S) (s : St K D M R S) (t : Nat) (o : Outcome R) : Option (St K D M R S) :=
  match s.tasks[t]? with
  | some (.inFlight e) => some <|
    match o with
    | .ok => loop cfg (s.emit (.succeeded e.key)) t
    | .retry =>
      if ((e.retries + 1 : Nat) : Int) ≥ cfg.maxRetries then
        afterPush cfg s t e.key (s.pair.pushError cfg.codecs e.key e.data cfg.reason (cfg.keep e.md))
      else
        afterPush cfg s t e.key (s.pair.pushPending cfg.codecs e.key e.data (e.retries + 1) (cfg.keep e.md))
    | .fatal r => afterPush cfg s t e.key (s.pair.pushError cfg.codecs e.key e.data r (cfg.keep e.md))
    | .raise => endTask (s.emit (.lost e.key)) t
  | _ => none

/-- `unpause_processing`, bh 65-67; `unpause_send_process`, bs 119-121. -/
def unpause (s : St K D M R S) : St K D M R S := check { s with paused := false }

/-- `pause_processing`, bh 62-63; `pause_send_process`, bs 116-117. -/
def pause (s : St K D M R S) : St K D M R S := { s with paused := true }

/-- The entries a queue would hand out one after the other; used only for the log. -/
def drainVals {V : Type} (c : Codec V S) : Nat → PQ K S → List V
  | 0, _ => []
  | n + 1, q => match q.pop c with
    | (.ok (some v), q') => v :: drainVals c n q'
    | _ => []

/-- The keys in the error queue; used only for the log. -/
def failedKeys (cfg : Cfg K D M R S) (s : St K D M R S) : List K :=
  (drainVals cfg.codecs.e s.pair.error.size s.pair.error).map EEntry.key

/-- `error_queue_clear`, bh 84-85, bs 135-136. -/
def clearErrors (cfg : Cfg K D M R S) (s : St K D M R S) : St K D M R S :=
  { s with pair := s.pair.clearError }.emit (.cleared (s.failedKeys cfg))

/-- `pop_request_from_error_queue`, bh 92-96, bs 143-147 (the reply is treated in `Verif.Pending`). -/
def popError (cfg : Cfg K D M R S) (s : St K D M R S) (k : K) : St K D M R S :=
  match s.pair.popError cfg.codecs k with
  | (.ok (some _), q) => { s with pair := q }.emit (.popped k)
  | (_, q) => { s with pair := q }

/-- `reprocess_error_queue`, bh 106-110, bs 157-161: pauses, moves, unpauses. An exception while moving
would leave it paused. The loop of the move gets one round per failed message and one to stop
(`Verif.Pending` proves that this is enough; `none` cannot occur). -/
def reprocessAll (cfg : Cfg K D M R S) (s : St K D M R S) : St K D M R S :=
  match s.pair.moveAllN cfg.codecs (s.pair.error.size + 1) with
  | some (.ok _, q) => check ({ s with pair := q, paused := false }.emit (.requeued (s.failedKeys cfg)))
  | some (.error _, q) => { s with pair := q, paused := true }
  | none => { s with paused := true }

/-- `reprocess_error_queue_span_key`, bh 113-120, bs 164-171. -/
def reprocessOne (cfg : Cfg K D M R S) (s : St K D M R S) (k : K) : St K D M R S :=
  match s.pair.moveOne cfg.codecs k with
  | (.ok (some _), q) => check ({ s with pair := q, paused := false }.emit (.requeued [k]))
  | (.ok none, q) => check { s with pair := q, paused := false }
  | (.error _, q) => { s with pair := q, paused := true }

/-- The state built by the constructor (bh 41-52, bs 38-48) with the queue of `__configure_queue`
(bh 123-136, bs 174-187); the log lists what the queue files contain. -/
def init (cfg : Cfg K D M R S) (q : Pair K S) : St K D M R S where
  pair := q
  paused := true
  running := false
  shutdown := false
  tasks := []
  current := none
  log := (drainVals cfg.codecs.p q.pending.size q.pending).map .found ++
    (drainVals cfg.codecs.e q.error.size q.error).map .foundFailed

/-- Cancelling one task. A task that has not started never runs its `finally`. -/
def cancel (s : St K D M R S) (t : Nat) : St K D M R S :=
  match s.tasks[t]? with
  | some (.inFlight e) => endTask (s.emit (.lost e.key)) t
  | some .scheduled => { s with tasks := s.tasks.set t .done }
  | _ => s

/-- What a terminating signal does to the object: `TerminationSignalException` leaves `asyncio.run`
(application_base.py 90-92, 219-224), which cancels all tasks. -/
def cancelAll (s : St K D M R S) : St K D M R S := (List.range s.tasks.length).foldl cancel s

/-- `shut_down`, bh 158-162, bs 67-70, called from `__exit__`, application_base.py 106-128. -/
def shutDown (s : St K D M R S) : St K D M R S := shutDownCheck { s with paused := true, shutdown := true }

end St

/-! ### Buffered endpoint -/

namespace Handler

/-- `BufferedRequestHandlerBase`: requests between the pause check and their acceptance
(`collect_push_metadata` may suspend), and push tasks that have been created but have not run. -/
structure HSt (K D M R S : Type) where
  core : St K D M R S
  recvPaused : Bool
  collecting : List (K × D)
  jobs : List (K × D × M)
  deriving DecidableEq

/-- Events. -/
inductive Label (K D M R : Type) where
  /-- a request reaches `attempt_request` and `run` -/
  | arrive (k : K) (raw : D)
  /-- its push hooks end with this metadata -/
  | accept (i : Nat) (m : M)
  /-- one of its push hooks raises -/
  | refuse (i : Nat)
  /-- a push task runs -/
  | push (i : Nat)
  | start (t : Nat)
  | finish (t : Nat) (o : Outcome R)
  | pauseReceiving
  | unpauseReceiving
  | pauseProcessing
  | unpauseProcessing
  | clearErrors
  | popError (k : K)
  | reprocessAll
  | reprocessOne (k : K)

/-- `setup`, bh 139-155. -/
def setup (cfg : Cfg K D M R S) (q : Pair K S) : HSt K D M R S where
  core := (St.init cfg q).check.unpause.check
  recvPaused := false
  collecting := []
  jobs := []

/-- One transition; `none` when the event is not possible.
`arrive`: `attempt_request` of handler_base.py 26-28, then bh 220-226 up to the first suspension.
`accept`: bh 227-230. `push`: the task created in bh 227, that is pending_queue.py 107-114. -/
def step (cfg : Cfg K D M R S) (s : HSt K D M R S) : Label K D M R → Option (HSt K D M R S)
  | .arrive k raw => some <|
    match cfg.build raw with
    | none => { s with core := s.core.emit (.rejected k) }
    | some d =>
      if s.recvPaused then { s with core := s.core.emit (.refused k) }
      else { s with collecting := s.collecting ++ [(k, d)] }
  | .accept i m => match s.collecting[i]? with
    | none => none
    | some (k, d) => some
      { s with collecting := s.collecting.eraseIdx i, jobs := s.jobs ++ [(k, d, m)],
               core := (s.core.emit (.acked k d m)).check }
  | .refuse i => match s.collecting[i]? with
    | none => none
    | some (k, _) => some { s with collecting := s.collecting.eraseIdx i, core := s.core.emit (.rejected k) }
  | .push i => match s.jobs[i]? with
    | none => none
    | some (k, d, m) => some
      { s with jobs := s.jobs.eraseIdx i, core := { s.core with pair := (s.core.pair.pushPending cfg.codecs k d 0 m).2 } }
  | .start t => (s.core.start cfg t).map fun c => { s with core := c }
  | .finish t o => match o with
    | .fatal _ => none
    | o => (s.core.finish cfg t o).map fun c => { s with core := c }
  | .pauseReceiving => some { s with recvPaused := true }
  | .unpauseReceiving => some { s with recvPaused := false, core := s.core.check }
  | .pauseProcessing => some { s with core := s.core.pause }
  | .unpauseProcessing => some { s with core := s.core.unpause }
  | .clearErrors => some { s with core := s.core.clearErrors cfg }
  | .popError k => some { s with core := s.core.popError cfg k }
  | .reprocessAll => some { s with core := s.core.reprocessAll cfg }
  | .reprocessOne k => some { s with core := s.core.reprocessOne cfg k }

/-- A terminating signal: all tasks are cancelled, also push tasks that have not run; then `shut_down`. -/
def terminate (s : HSt K D M R S) : HSt K D M R S where
  core := s.core.cancelAll.shutDown
  recvPaused := true
  collecting := []
  jobs := []

end Handler

/-! ### Buffered sender -/

namespace Sender

/-- Events. -/
inductive Label (K D R : Type) where
  | enqueue (k : K) (d : D)
  | start (t : Nat)
  | finish (t : Nat) (o : Outcome R)
  | pause
  | unpause
  | clearErrors
  | popError (k : K)
  | reprocessAll
  | reprocessOne (k : K)

/-- `setup`, bs 190-205. -/
def setup (cfg : Cfg K D M R S) (q : Pair K S) : St K D M R S := (St.init cfg q).unpause.check

/-- One transition. `enqueue`: bs 55-59 with the span key chosen by the caller (a missing one is
generated); an exception in the push is passed on to the caller. -/
def step (cfg : Cfg K D M R S) (s : St K D M R S) : Label K D R → Option (St K D M R S)
  | .enqueue k d => some <|
    match s.pair.pushPending cfg.codecs k d 0 cfg.noMeta with
    | (.error _, q) => { s with pair := q }
    | (.ok _, q) => ({ s with pair := q }.emit (.acked k d cfg.noMeta)).check
  | .start t => s.start cfg t
  | .finish t o => s.finish cfg t o
  | .pause => some s.pause
  | .unpause => some s.unpause
  | .clearErrors => some (s.clearErrors cfg)
  | .popError k => some (s.popError cfg k)
  | .reprocessAll => some (s.reprocessAll cfg)
  | .reprocessOne k => some (s.reprocessOne cfg k)

/-- A terminating signal. -/
def terminate (s : St K D M R S) : St K D M R S := s.cancelAll.shutDown

end Sender

end Verif.Buffered
