import Verif.Py.Basic
import Verif.Span.Model

/-!
# Model of tracing (ekosis_otlp_traces)

`OtlpTracingMiddleware` (ekosis_otlp_traces/ekosis_otlp_traces/middleware.py) and `OtlpBufferedTracingMiddleware`
(buffered_middleware.py of the same directory) as the router (ekosis/requests/request_router.py 54-67) and the buffered endpoint
(ekosis/requests/buffered_handler_base.py 179-198, 220-230) call them.

Simplifications: no other middleware changes the span key of the request; the `success` handed to `after_process` is a Boolean. None of
the hooks suspends, so each is one step. `start_span`, `set_attribute`, `set_status` and `end` are those of the OpenTelemetry library: a span is identified by
its number in order of creation, its 64-bit id is `ids` of that number, and its parent is the span context given when that is valid
and absent otherwise (`SpanContext.is_valid`, `Tracer.start_span`).
-/

namespace Verif.Traces

open Verif.Py Verif.Span

/-- Values of span attributes. -/
inductive Attr where
  | text (s : List Char)
  | num (n : Nat)
  deriving DecidableEq, Repr

/-- The parent of a span: its trace, its span id, and whether it is remote. -/
structure Parent where
  trace : Nat
  span : Nat
  remote : Bool
  deriving DecidableEq, Repr

/-- What a span is created with (`start_span` followed by `set_attribute`). A span without parent starts a new trace. -/
structure Span where
  name : List Char
  parent : Option Parent
  attributes : List (String × Attr)
  deriving DecidableEq, Repr

/-- One call of `end()`: the span, whether its status was set to OK, and the attribute `process.success` if it was set. -/
structure End where
  span : Nat
  ok : Bool
  success : Option Bool
  deriving DecidableEq, Repr

/-- The part of a process that concerns tracing: the spans created so far, the calls of `end()`, `_active_spans` (middleware.py 15) and
`_process_spans` (buffered_middleware.py 16).
Dictionaries are keyed by `SpanKey`, whose equality and hash are those of its byte form; keys that have one are equal exactly when
their byte forms are (C32). -/
structure Tracer where
  started : List Span
  ended : List End
  active : Dict SpanKey Nat
  process : Dict SpanKey Nat

/-- `NonRecordingSpan(SpanContext(...))` as parent: ignored unless both ids are positive and fit (library). -/
def context (trace : Nat) (span : Int) (remote : Bool) : Option Parent :=
  if 0 < trace ∧ trace < 2 ^ 128 ∧ 0 < span ∧ span < 2 ^ 64 then some ⟨trace, span.toNat, remote⟩ else none

/-- `before_routing`, middleware.py 32-45. `self._active_spans[span_key]` hashes the key, which raises for keys without a byte form. -/
def beforeRouting (s : Tracer) (key : SpanKey) (route : List Char) : Except PyErr Unit × Tracer :=
  let span : Span :=
    { name := route,
      parent := context key.trace key.span.value true,
      attributes := [("request.trace_id", .text (uuidText key.trace)), ("request.span_id", .text key.span.hex),
                     ("request.route_key", .text route)] }
  let s1 := { s with started := s.started ++ [span] }
  match key.bytes with
  | .error e => (.error e, s1)
  | .ok _ => (.ok (), { s1 with active := Dict.set s1.active key s.started.length })

/-- `after_routing`, middleware.py 48-53. -/
def afterRouting (s : Tracer) (key : SpanKey) : Except PyErr Unit × Tracer :=
  match key.bytes with
  | .error e => (.error e, s)
  | .ok _ =>
    match Dict.get? s.active key with
    | none => (.ok (), s)
    | some n => (.ok (), { s with active := Dict.erase s.active key, ended := s.ended ++ [⟨n, true, none⟩] })

/-- `before_push`, buffered_middleware.py 19-23, with `get_active_span`, middleware.py 56-57: the metadata
`otlp_receive_span_id`, if any. -/
def beforePush (ids : Nat → Nat) (s : Tracer) (key : SpanKey) : Option Nat :=
  match key.bytes with
  | .error _ => none
  | .ok _ => (Dict.get? s.active key).map ids

/-- `before_process`, buffered_middleware.py 26-43. `cls` is the class name of the request's data. -/
def beforeProcess (s : Tracer) (key : SpanKey) (cls : List Char) (receive : Option Nat) (retries : Nat) :
    Except PyErr Unit × Tracer :=
  let parent : Int := match receive with
    | some i => (i : Int)
    | none => key.span.value
  let span : Span :=
    { name := cls ++ ".process".toList,
      parent := context key.trace parent receive.isNone,
      attributes := [("request.trace_id", .text (uuidText key.trace)), ("request.span_id", .text key.span.hex),
                     ("request.retries", .num retries)] }
  let s1 := { s with started := s.started ++ [span] }
  match key.bytes with
  | .error e => (.error e, s1)
  | .ok _ => (.ok (), { s1 with process := Dict.set s1.process key s.started.length })

/-- `after_process`, buffered_middleware.py 46-50. -/
def afterProcess (s : Tracer) (key : SpanKey) (success : Bool) : Except PyErr Unit × Tracer :=
  match key.bytes with
  | .error e => (.error e, s)
  | .ok _ =>
    match Dict.get? s.process key with
    | none => (.ok (), s)
    | some n => (.ok (), { s with process := Dict.erase s.process key, ended := s.ended ++ [⟨n, false, some success⟩] })

/-! ## Requests and attempts running side by side -/

/-- A request being routed, or one turn of a buffered endpoint's worker. -/
inductive Task where
  | idle
  | serving (key : SpanKey)
  | processing (key : SpanKey)
  | over
  deriving DecidableEq, Repr

/-- A queued request: its key and the metadata stored with it. It reaches every attempt unchanged (C23), also after a restart (C06). -/
structure Item where
  key : SpanKey
  receive : Option Nat
  deriving DecidableEq, Repr

/-- Everything. -/
structure State where
  tr : Tracer
  tasks : Nat → Task
  queued : List Item

/-- What can happen. -/
inductive Event where
  /-- request `t` reaches the hooks that run before routing -/
  | arrive (t : Nat) (key : SpanKey) (route : List Char)
  /-- request `t`, handled by a buffered endpoint, is queued -/
  | push (t : Nat)
  /-- request `t` was handled and reaches the hooks that run after routing -/
  | respond (t : Nat)
  /-- the handler of `t`, or another middleware, raised -/
  | fail (t : Nat)
  /-- a request is queued by a process that runs without tracing -/
  | stored (key : SpanKey)
  /-- attempt `t` to process the `i`-th of all requests ever queued begins -/
  | attempt (t : Nat) (i : Nat) (cls : List Char) (retries : Nat)
  /-- attempt `t` ends with this result -/
  | result (t : Nat) (success : Bool)
  /-- attempt `t` raises -/
  | crash (t : Nat)
  /-- the process ends and is started again -/
  | restart
  deriving DecidableEq, Repr

/-- Assign a task. -/
def setTask (f : Nat → Task) (t : Nat) (x : Task) : Nat → Task := fun u => if u = t then x else f u

/-- One event. Requests: `RequestRouter.route_request`, request_router.py 54-67 (hooks before, handler, hooks after, which do not run when
something raised). Attempts: `__do_queue_processing`, buffered_handler_base.py 187-198. Pushes: `run`, buffered_handler_base.py 226. An
event that does not fit the state of its task does nothing.
Simplification: any request ever queued can be attempted any number of times in any order; the queues (C01-C20) allow less. -/
def step (ids : Nat → Nat) (s : State) : Event → State
  | .arrive t key route =>
    match s.tasks t with
    | .idle =>
      match beforeRouting s.tr key route with
      | (.ok (), tr) => { s with tr := tr, tasks := setTask s.tasks t (.serving key) }
      | (.error _, tr) => { s with tr := tr, tasks := setTask s.tasks t .over }
    | _ => s
  | .push t =>
    match s.tasks t with
    | .serving key => { s with queued := s.queued ++ [⟨key, beforePush ids s.tr key⟩] }
    | _ => s
  | .respond t =>
    match s.tasks t with
    | .serving key => { s with tr := (afterRouting s.tr key).2, tasks := setTask s.tasks t .over }
    | _ => s
  | .fail t =>
    match s.tasks t with
    | .serving _ => { s with tasks := setTask s.tasks t .over }
    | _ => s
  | .stored key => { s with queued := s.queued ++ [⟨key, none⟩] }
  | .attempt t i cls retries =>
    match s.tasks t, s.queued[i]? with
    | .idle, some item =>
      match beforeProcess s.tr item.key cls item.receive retries with
      | (.ok (), tr) => { s with tr := tr, tasks := setTask s.tasks t (.processing item.key) }
      | (.error _, tr) => { s with tr := tr, tasks := setTask s.tasks t .over }
    | _, _ => s
  | .result t success =>
    match s.tasks t with
    | .processing key => { s with tr := (afterProcess s.tr key success).2, tasks := setTask s.tasks t .over }
    | _ => s
  | .crash t =>
    match s.tasks t with
    | .processing _ => { s with tasks := setTask s.tasks t .over }
    | _ => s
  | .restart =>
    { s with
      tr := { s.tr with active := [], process := [] },
      tasks := fun u => match s.tasks u with | .idle => .idle | _ => .over }

/-- Many events. -/
def run (ids : Nat → Nat) (s : State) (es : List Event) : State := es.foldl (step ids) s

/-- The beginning. -/
def init : State := { tr := { started := [], ended := [], active := [], process := [] }, tasks := fun _ => .idle, queued := [] }

end Verif.Traces
