/-!
# Model of tasks and of the current span key

Files: `ekosis/requests/request_context.py` ("rc"), `ekosis/util/fire_and_forget_tasks.py` ("ff"), `ekosis/servers/server_base.py`
("sb"), `ekosis/servers/stream_server_base.py`, `ekosis/servers/json/udp.py`, and the workers of
`ekosis/requests/buffered_handler_base.py` ("bh") and `ekosis/sending/buffered_sender_base.py` ("bs").

asyncio's loop runs handles first-in first-out. A handle runs in the context that was current when it was made, a task in a copy of the
context in which it was created (`call_soon` and `Task.__init__` without `context=`), and `_current_span_key` (rc 17) is the only
variable of the context that is modelled. Code runs without interruption up to an `await` that suspends.

Simplifications. Of code, only what concerns tasks and the current span key is kept; logging stands for everything that looks at it (the
formatter, ekosis/logs/otlp_formatter.py 12). Cancellation is not modelled. A buffered component's queue is a list of messages with the
code that is run for each; retries are messages put again.
-/

namespace Verif.Tasks

/-- Code as it runs in a task. -/
inductive Code (K : Type) where
  /-- `return` -/
  | done
  /-- log (with a name for the line) -/
  | log (id : Nat) (rest : Code K)
  /-- an `await` that suspends -/
  | wait (rest : Code K)
  /-- `raise` -/
  | fail
  /-- `_set_current_span_key(k)`, `body`, `finally: _reset_current_span_key`; `catches`: exceptions do not leave the block. The handling of
  a request with key `k` is such a block with `catches`, sb 38-53 and 54-77 -/
  | block (k : K) (catches : Bool) (body rest : Code K)
  /-- call of a function decorated with `run_soon`, ff 24-34 -/
  | soon (body rest : Code K)
  /-- `fire_and_forget_task`, ff 15-21; bh 227 -/
  | spawn (body rest : Code K)
  /-- a message with key `k` is put into the queue of buffered component `w`; `body` is what is run for it -/
  | put (w : Nat) (k : K) (body rest : Code K)
  /-- `__check_process_queue` of `w`, bh 215-217, bs 62-64 -/
  | check (w : Nat) (rest : Code K)
  /-- the worker of `w`, bh 178-198, bs 88-104 -/
  | loop (w : Nat)
  deriving DecidableEq

/-- What waits for a block to end: the value to put back (the token's), whether exceptions stop here, what is run next. -/
structure Frame (K : Type) where
  saved : Option K
  catches : Bool
  rest : Code K
  deriving DecidableEq

/-- A task. `ctx`: `_current_span_key` in its context; `fire` (for observation only): it was made by `run_soon` or
`fire_and_forget_task`. -/
structure Task (K : Type) where
  ctx : Option K
  code : Code K
  frames : List (Frame K) := []
  waiting : Bool := false
  over : Bool := false
  fire : Bool := false
  deriving DecidableEq

/-- What the loop is to run. `call`: `called_task`, ff 25-29, with the context of the caller; `discard`: the callback of ff 20, 28. -/
inductive Handle (K : Type) where
  | call (n : Nat) (ctx : Option K) (body : Code K)
  | step (t : Nat)
  | discard (t : Nat)
  deriving DecidableEq

/-- The loop. `kept` is `FIRE_AND_FORGET_TASKS`, ff 3; `calls` and `begun` number the calls of `run_soon` functions, `trace` has the lines
logged with the key seen, for observation only. -/
structure St (K : Type) where
  tasks : List (Task K) := []
  ready : List (Handle K) := []
  current : Option Nat := none
  queue : List (Nat × K × Code K) := []
  workers : Nat → Option Nat := fun _ => none
  kept : List Nat := []
  calls : Nat := 0
  begun : List Nat := []
  trace : List (Nat × Option K) := []

/-- What happens next. -/
inductive Label (K : Type) where
  /-- the loop takes the next handle -/
  | next
  /-- the running task goes on -/
  | exec
  /-- the running worker finds its component paused -/
  | quit
  /-- what a task waits for is there -/
  | wake (t : Nat)
  /-- a connection or datagram: a task is created outside of any request -/
  | connect (c : Code K)

variable {K : Type}

/-- The first message of `w`, and the other messages. -/
def takeFirst (w : Nat) : List (Nat × K × Code K) → Option ((K × Code K) × List (Nat × K × Code K))
  | [] => none
  | (v, m) :: q => if v = w then some (m, q) else (takeFirst w q).map fun r => (r.1, (v, m) :: r.2)

/-- An exception: blocks end and put their value back, up to one that catches it; a task without such a block ends. -/
def unwind (ctx : Option K) : List (Frame K) → Option K × Code K × List (Frame K)
  | [] => (ctx, .done, [])
  | f :: fs => if f.catches then (f.saved, f.rest, fs) else unwind f.saved fs

/-- A task is created: `asyncio.create_task`. -/
def create (s : St K) (ctx : Option K) (c : Code K) (fire : Bool := false) : St K :=
  { s with tasks := s.tasks ++ [{ ctx := ctx, code := c, fire := fire }], ready := s.ready ++ [.step s.tasks.length] }

/-- The running task `t`, which is `x`, does one thing. `endpoint w`: component `w` is a buffered endpoint, not a buffered sender. -/
def exec (endpoint : Nat → Bool) (s : St K) (t : Nat) (x : Task K) : St K :=
  let put := fun (s : St K) (y : Task K) => { s with tasks := s.tasks.set t y }
  match x.code with
  | .done => match x.frames with
    | [] =>
      let s := put s { x with over := true }
      { s with current := none, ready := if t ∈ s.kept then s.ready ++ [.discard t] else s.ready }
    | f :: fs => put s { x with ctx := f.saved, code := f.rest, frames := fs }
  | .log id r => { put s { x with code := r } with trace := s.trace ++ [(id, x.ctx)] }
  | .wait r => { put s { x with code := r, waiting := true } with current := none }
  | .fail =>
    let r := unwind x.ctx x.frames
    put s { x with ctx := r.1, code := r.2.1, frames := r.2.2 }
  | .block k catches b r => put s { x with ctx := some k, code := b, frames := ⟨x.ctx, catches, r⟩ :: x.frames }
  | .soon b r => { put s { x with code := r } with ready := s.ready ++ [.call s.calls x.ctx b], calls := s.calls + 1 }
  | .spawn b r => { create (put s { x with code := r }) x.ctx b true with kept := s.kept ++ [s.tasks.length] }
  | .put w k b r => { put s { x with code := r } with queue := s.queue ++ [(w, k, b)] }
  | .check w r =>
    let s := put s { x with code := r }
    match (s.workers w).bind fun u => s.tasks[u]? with
    | some y => if y.over then { create s x.ctx (.loop w) with workers := fun v => if v = w then some s.tasks.length else s.workers v } else s
    | none => { create s x.ctx (.loop w) with workers := fun v => if v = w then some s.tasks.length else s.workers v }
  | .loop w => match takeFirst w s.queue with
    | none => put s { x with code := .done }
    | some ((k, b), q) =>
      let s := { s with queue := q }
      if endpoint w then
        -- bh 186-198: exceptions end the worker
        put s { x with ctx := some k, code := b, frames := ⟨x.ctx, false, .loop w⟩ :: x.frames }
      else
        -- bs 93-104: the current span key is left alone; exceptions are caught
        put s { x with code := b, frames := ⟨x.ctx, true, .loop w⟩ :: x.frames }

/-- One event; `none` when it is not possible. -/
def step (endpoint : Nat → Bool) (s : St K) : Label K → Option (St K)
  | .next => match s.current, s.ready with
    | none, .call n ctx c :: hs =>
      some { create { s with ready := hs } ctx c true with kept := s.kept ++ [s.tasks.length], begun := s.begun ++ [n] }
    | none, .step t :: hs => some { s with ready := hs, current := some t }
    | none, .discard t :: hs => some { s with ready := hs, kept := s.kept.filter fun u => u ≠ t }
    | _, _ => none
  | .exec => match s.current with
    | some t => match s.tasks[t]? with
      | some x => some (exec endpoint s t x)
      | none => none
    | none => none
  | .quit => match s.current with
    | some t => match s.tasks[t]? with
      | some x => match x.code with
        | .loop _ => some { s with tasks := s.tasks.set t { x with code := .done } }
        | _ => none
      | none => none
    | none => none
  | .wake t => match s.tasks[t]? with
    | some x => if x.waiting then some { s with tasks := s.tasks.set t { x with waiting := false }, ready := s.ready ++ [.step t] } else none
    | none => none
  | .connect c => some (create s none c)

/-- Several events. -/
def steps (endpoint : Nat → Bool) : St K → List (Label K) → Option (St K)
  | s, [] => some s
  | s, l :: ls => match step endpoint s l with
    | none => none
    | some s' => steps endpoint s' ls

end Verif.Tasks
