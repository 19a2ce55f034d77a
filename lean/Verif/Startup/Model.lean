/-!
# Model of the tasks of an application (ekosis/application_base.py, "ab")

`__start` (ab 279-302) sets up the buffered components, creates the internal tasks, calls `setup_tasks` of the application and waits for
all tasks of the list. The event loop is asyncio's (Python 3.11, Lib/asyncio/base_events.py "be", tasks.py "at", runners.py "ar"): `_run_once`,
be 1859-1934, polls, appends the callbacks of what has happened to those that are ready, and runs exactly these; callbacks scheduled meanwhile
run the next time.

Simplifications. What a task does in one step (up to the next `await` that suspends, or to its end) is given from outside, as are the events of
the poll. A server listens from the step on that starts it (for UDP the reader is added a turn later, selector_events.py `_SelectorDatagramTransport`),
and an accepted connection gets its task at once (in asyncio it takes some turns). Signals are in `Verif.Life` and C75. `setup_tasks` is code that
creates tasks, suspends and may raise; it does not remove anything from the list it is given and appends no task twice. What tasks do once
they have been cancelled is not modelled.
-/

namespace Verif.Startup

/-- The tasks: workers of buffered endpoints and senders; tasks that wait for their shutdown and the task of the statistics keeper; servers; tasks of
the application, numbered as they are created; connections. -/
inductive Kind where
  | worker
  | inner
  | server
  | own (j : Nat)
  | conn
  deriving DecidableEq, Repr

/-- The code of `setup_tasks`. `create true` is `tasks.append(asyncio.create_task(...))`, `create false` is a task that is not put into the list. -/
inductive Cmd where
  | create (kept : Bool)
  | wait
  | raise (e : Nat)
  deriving DecidableEq, Repr

/-- How a step of a task ends. `again` is `sleep(0)`. -/
inductive Next where
  | suspend
  | again
  | finish
  | fail (e : Nat)
  deriving DecidableEq, Repr

/-- A step of a task: does it call an endpoint's function, does it start to listen, how does it end. -/
structure Act where
  handles : Bool
  listens : Bool
  next : Next
  deriving DecidableEq, Repr

/-- A task. `over`: `some none` if it has returned, `some (some e)` if it has raised; `waiting`: it is suspended. -/
structure Task where
  kind : Kind
  waiting : Bool
  over : Option (Option Nat)
  deriving DecidableEq, Repr

/-- Where `__start` is. `resumed`: the `await` in `setup_tasks` has ended, the step is scheduled. -/
inductive Main where
  | fresh
  | waiting (rest : List Cmd)
  | resumed (rest : List Cmd)
  | gathering
  | over (r : Option Nat)
  deriving DecidableEq, Repr

/-- Handles of the loop: a step of `__start`, the first and later steps of a task, a connection or a datagram for a server,
`_done_callback` of `gather` (at 764-814), `_run_until_complete_cb` (be 181-189). -/
inductive Job where
  | main
  | first (t : Nat) (k : Kind)
  | step (t : Nat)
  | accept (t : Nat)
  | done (t : Nat)
  | stop
  deriving DecidableEq, Repr

/-- What is observed. -/
inductive Ev where
  | started (j : Nat)
  | accepted
  | handled (k : Kind)
  | gathered
  | ended (k : Kind) (r : Option Nat)
  | over (r : Option Nat)
  | cancelled (j : Nat)
  | closed
  deriving DecidableEq, Repr

/-- The loop and the tasks. `kept` is the list `tasks` (ab 280), `counted` are the tasks counted in `nfinished` (at 766), `outer` is the future of
`gather`, `own` the number of tasks that `setup_tasks` has created. -/
structure St where
  main : Main
  tasks : List Task
  kept : List Nat
  ready : List Job
  listening : List Nat
  counted : List Nat
  outer : Option (Option Nat)
  own : Nat
  stopping : Bool
  trace : List Ev
  deriving DecidableEq, Repr

/-- `asyncio.run(self.__start())`, ab 224: the task of `__start` is scheduled. -/
def init : St :=
  { main := .fresh, tasks := [], kept := [], ready := [.main], listening := [], counted := [], outer := none, own := 0, stopping := false, trace := [] }

/-- Observe. -/
def St.say (s : St) (e : Ev) : St := { s with trace := s.trace ++ [e] }

/-- `call_soon`. -/
def St.soon (s : St) (j : Job) : St := { s with ready := s.ready ++ [j] }

/-- `asyncio.create_task`, and `tasks.append` if `kept`. -/
def spawn (k : Kind) (kept : Bool) (s : St) : St :=
  let t := s.tasks.length
  { s with tasks := s.tasks ++ [{ kind := k, waiting := false, over := none }], ready := s.ready ++ [.first t k], kept := if kept then s.kept ++ [t] else s.kept }

/-- The tasks that exist before `setup_tasks` is called: the worker of each buffered component (buffered_handler_base.py 139-155, 215-217,
buffered_sender_base.py 62-64, 190-205; created while setting up, ab 282-283, where nothing suspends), `wait_for_shutdown` of each (ab 285-292), the statistics keeper
and the three servers (ab 294-297). A server that is not configured has a task that does nothing. -/
def internals (comps : Nat) : List (Kind × Bool) :=
  List.replicate comps (Kind.worker, false) ++ List.replicate comps (Kind.inner, true)
    ++ [(.inner, true), (.server, true), (.server, true), (.server, true)]

/-- `asyncio.gather(*tasks)`, ab 302, at 822-846: a callback for each task, at once scheduled for those that have ended. -/
def gather (s : St) : St :=
  let ended := s.kept.filter fun t => (s.tasks[t]?.any fun x => x.over.isSome)
  { s.say .gathered with main := .gathering, ready := s.ready ++ ended.map Job.done }

/-- `__start` ends: `run_until_complete` is told (be 181-189). -/
def endMain (r : Option Nat) (s : St) : St :=
  { s.say (.over r) with main := .over r, ready := s.ready ++ [.stop] }

/-- `await self.setup_tasks(tasks)` and what follows, ab 299-302. -/
def exec : List Cmd → St → St
  | [], s => gather s
  | .create kept :: cs, s => exec cs { spawn (.own s.own) kept s with own := s.own + 1 }
  | .wait :: cs, s => { s with main := .waiting cs }
  | .raise e :: _, s => endMain (some e) s

/-- A step of `__start`. -/
def mainStep (comps : Nat) (code : List Cmd) (s : St) : St :=
  match s.main with
  | .fresh => exec code ((internals comps).foldl (fun s p => spawn p.1 p.2 s) s)
  | .resumed rest => exec rest s
  | .gathering =>
    match s.outer with
    | some r => endMain r s
    | none => s
  | _ => s

/-- A task ends (a future that is done stays as it is, futures.py 253-283), and if `gather` waits for it its callback is scheduled. -/
def finish (t : Nat) (r : Option Nat) (s : St) : St :=
  match s.tasks[t]? with
  | none => s
  | some x =>
    if x.over.isSome then s
    else
      let s' : St := { s with tasks := s.tasks.modify t fun x => { x with over := some r }, trace := s.trace ++ [.ended x.kind r] }
      if s.main = .gathering ∧ t ∈ s.kept then s'.soon (.done t) else s'

/-- Only connections and workers call endpoints' functions. -/
def handle (a : Act) (k : Kind) (s : St) : St :=
  if a.handles ∧ (k = .conn ∨ k = .worker) then s.say (.handled k) else s

/-- Only servers listen. -/
def listen (a : Act) (t : Nat) (k : Kind) (s : St) : St :=
  if a.listens ∧ k = .server then { s with listening := s.listening ++ [t] } else s

/-- A task of kind `k` runs up to its next `await` or its end (at 246-330). -/
def act (a : Act) (t : Nat) (k : Kind) (s : St) : St :=
  let s := listen a t k (handle a k s)
  match a.next with
  | .suspend => { s with tasks := s.tasks.modify t fun x => { x with waiting := true } }
  | .again => s.soon (.step t)
  | .finish => finish t none s
  | .fail e => finish t (some e) s

/-- `_done_callback`, at 764-814. -/
def doneCallback (t : Nat) (s : St) : St :=
  let s : St := { s with counted := s.counted ++ [t] }
  if s.outer.isSome then s
  else match s.tasks[t]? with
    | some { over := some (some e), .. } => { s with outer := some (some e), ready := s.ready ++ [.main] }
    | _ =>
      if s.counted.length = s.kept.length then { s with outer := some none, ready := s.ready ++ [.main] }
      else s

/-- Run a handle. -/
def run (comps : Nat) (code : List Cmd) (acts : Nat → Act) (s : St) : Job → St
  | .main => mainStep comps code s
  | .first t k =>
    let s := match k with
      | .own j => s.say (.started j)
      | _ => s
    act (acts t) t k s
  | .step t =>
    match s.tasks[t]? with
    | some x => if x.over.isSome then s else act (acts t) t x.kind s
    | none => s
  | .accept _ => spawn .conn false (s.say .accepted)
  | .done t => doneCallback t s
  | .stop => { s with stopping := true }

/-- What the poll finds: a connection or datagram for a server, what a task or `setup_tasks` waits for. -/
inductive Poll where
  | accept (t : Nat)
  | wake (t : Nat)
  | wakeMain
  deriving DecidableEq, Repr

/-- `_process_events` and the timers, be 1895-1907. -/
def admit (s : St) : Poll → St
  | .accept t => if t ∈ s.listening then s.soon (.accept t) else s
  | .wake t =>
    match s.tasks[t]? with
    | some x => if x.waiting then { s.soon (.step t) with tasks := s.tasks.modify t fun x => { x with waiting := false } } else s
    | none => s
  | .wakeMain =>
    match s.main with
    | .waiting rest => { s.soon .main with main := .resumed rest }
    | _ => s

/-- Tasks of the application that have not ended are cancelled. -/
def left (x : Task) : Option Ev :=
  match x.kind, x.over with
  | .own j, none => some (.cancelled j)
  | _, _ => none

/-- `_cancel_all_tasks`, ar 193-200, once the loop has stopped. -/
def close (s : St) : St := { s with trace := s.trace ++ s.tasks.filterMap left ++ [.closed] }

/-- What happens in one turn of the loop. -/
structure Turn where
  polls : List Poll
  acts : Nat → Act

/-- `_run_once`, be 1859-1934, and the end of `run_forever`, be 606-611. -/
def turn (comps : Nat) (code : List Cmd) (s : St) (w : Turn) : St :=
  if s.stopping then s
  else
    let s := w.polls.foldl admit s
    let s : St := s.ready.foldl (run comps code w.acts) { s with ready := [] }
    if s.stopping then close s else s

/-- Some turns of the loop. -/
def turns (comps : Nat) (code : List Cmd) (ws : List Turn) : St := ws.foldl (turn comps code) init

end Verif.Startup
