import Verif.Py.Json

/-!
# Model of request handling

`ServerBase._route_request` (`ekosis/servers/server_base.py`, cited as "sb"), the router
(`ekosis/requests/request_router.py`, "rr"), the middleware manager (`ekosis/middleware/manager.py`,
"mm"), the handler base class (`ekosis/requests/handler_base.py`, "hb"), endpoint functions
(`ekosis/requests/standard_handler.py`, "sh"; `endpoint.py`, "ep") and the request context
(`ekosis/requests/request_context.py`, "rc").

One task is modelled: a connection handles its requests one after the other in one task, and a
`ContextVar` belongs to the task. Application code (hooks, endpoint functions) is any function that may
read and change the world, raise, or handle further requests itself.

Simplifications. Values are immutable: a hook that changes the request object in place is a hook that
returns the changed one. The lists of handlers and hooks do not change during a request. Logging and
timing are dropped. `json.loads` and pydantic's field checks are parameters (`Server.loads`,
`Server.spanOf`, `Handler.build`), so that theorems hold for every behaviour of them.
-/

namespace Verif.Server

open Verif.Py

/-- The exceptions that `_route_request` tells apart.
`json`: `JSONDecodeError`; `validation`: pydantic's `ValidationError`; `routing`: `RoutingExceptionBase`
with its status, rr 17-21; `app`: `ApplicationProcessingException`; `paused`:
`BufferedRequestHandlerExceptionBase` with its status, buffered_handler_base.py 21-24; `py`, `other`:
other subclasses of `Exception`; `base`: a `BaseException` that is not an `Exception`, such as
`CancelledError`. -/
inductive Exc where
  | json (msg : String)
  | validation (msg : String)
  | routing (status : Int) (msg : String)
  | app (msg : String)
  | paused (status : Int) (msg : String)
  | py (e : PyErr)
  | other (msg : String)
  | base
  deriving DecidableEq, Repr

/-- `str(e)`, as used for the response data in sb 58, 64, 70, 76. The texts of Python's own errors are
dropped. -/
def Exc.text : Exc → String
  | .json m => m
  | .validation m => m
  | .routing _ m => m
  | .app m => m
  | .paused _ m => m
  | .py _ => ""
  | .other m => m
  | .base => ""

/-- `RequestDTO`, json_protocol.py 57-60. -/
structure Req (K : Type) where
  routeKey : String
  spanKey : K
  data : Json
  deriving DecidableEq, Repr

/-- The Python values that are passed to and returned from application code: `None`, a span key, a
request object, a pydantic model (its fields), anything else. -/
inductive Val (K : Type) where
  | none
  | span (k : K)
  | req (r : Req K)
  | model (fields : Json)
  | other (j : Json)
  deriving DecidableEq, Repr

/-- Keyword arguments. -/
abbrev Kwargs (K : Type) := Dict String (Val K)

/-- `ResponseDTO`, json_protocol.py 63-66. -/
structure Resp (K : Type) where
  spanKey : Option K
  status : Int
  data : Val K
  deriving DecidableEq, Repr

/-- Which piece of application code. Names identify hook objects and endpoint functions. -/
inductive Who where
  | before (name : String)
  | handler (name : String)
  | after (name : String)
  deriving DecidableEq, Repr

/-- What happens during requests, for observation only.
`enter`/`leave` bracket the handling of a parsed request; `call` is the start of application code with
its arguments and with the value of the context variable at that moment; `ret` is its end; `look` is
application code reading the context variable. -/
inductive Event (K : Type) where
  | enter (k : K)
  | leave
  | call (who : Who) (args : Kwargs K) (ctx : Option K)
  | ret (who : Who) (result : Except Exc (Val K))
  | look (ctx : Option K)

/-- The world of one task. `ctx` is `_current_span_key`, rc 17; `served` lists the route keys handed to
`add_endpoint_stats`, sb 46; `app` is the application's own state. -/
structure World (K σ : Type) where
  ctx : Option K
  trace : List (Event K)
  served : List String
  app : σ

/-- A piece of code: changes the world and returns or raises. -/
def M (K σ α : Type) := World K σ → Except Exc α × World K σ

namespace M

variable {K σ α β : Type}

/-- `return a` -/
def pure (a : α) : M K σ α := fun w => (.ok a, w)

/-- One after the other; an exception ends both. -/
def bind (m : M K σ α) (f : α → M K σ β) : M K σ β := fun w =>
  match m w with
  | (.ok a, w') => f a w'
  | (.error e, w') => (.error e, w')

/-- `raise e` -/
def raise (e : Exc) : M K σ α := fun w => (.error e, w)

/-- Lift a result. -/
def ofExcept (x : Except Exc α) : M K σ α := fun w => (x, w)

instance : Monad (M K σ) where
  pure := pure
  bind := bind

end M

/-- How a parameter is declared. `normal` includes keyword-only ones. -/
inductive ParamKind where
  | normal
  | posOnly
  | varArgs
  | varKw
  deriving DecidableEq, Repr

/-- A declared parameter of an endpoint function. -/
structure Param where
  name : String
  kind : ParamKind := .normal
  hasDefault : Bool := false
  deriving DecidableEq, Repr

/-- One middleware object: its name and its two hooks, middleware_base.py 5-10. -/
structure Middleware (K σ : Type) where
  name : String
  before : Kwargs K → M K σ (Val K)
  after : Kwargs K → M K σ (Val K)

/-- What a handler's `run` does: an endpoint function with its declared parameters
(`StandardHandler`), or the `run` of a buffered handler. -/
inductive Body (K σ : Type) where
  | standard (params : List Param) (fn : Kwargs K → M K σ (Val K))
  | buffered (run : Kwargs K → M K σ (Val K))

/-- A handler, hb 10-21: route key, `request_dto_type(**data)` as a function of the fields, and body.
`name` identifies the object. -/
structure Handler (K σ : Type) where
  name : String
  route : String
  build : List (String × Json) → Except Exc Json
  body : Body K σ

/-- The server with its library parameters and the singletons it uses.
`loads` is `json.loads(text.strip())`; `spanOf` is the validation of the field `span_key`; `why` is the
text of a validation error. -/
structure Server (K σ : Type) where
  loads : String → Except Exc Json
  spanOf : Json → Option K
  why : List (String × Json) → String
  table : Dict String (Handler K σ)
  middlewares : List (Middleware K σ)

variable {K σ : Type}

/-- `SUCCESS` .. `UNHANDLED`, status.py 4-15; the framework itself answers with no other (200 and 500 are for applications). -/
def statusSuccess : Int := 0
def statusProtocolParsing : Int := 100
def statusValidation : Int := 300
def statusRouteUnknown : Int := 400
def statusProcessing : Int := 600
def statusUnhandled : Int := 999

/-- `RoutingExceptionBase(status, message)`, rr 17-21. -/
def routingException (status : Int) (message : String) : Exc :=
  .routing status s!"status: [{status}] message: [{message}]"

/-- `RouterProcessingException`, rr 24-26. -/
def routerProcessing (route message : String) : Exc :=
  routingException statusProcessing s!"Processing Failure '{route}', message: '{message}'"

/-- `UnknownRouteKeyException`, rr 29-31. -/
def unknownRoute (route : String) : Exc :=
  routingException statusRouteUnknown s!"Unknown route key '{route}'"

/-! ### Registration -/

/-- `register_handler`, rr 40-45 (the statistics entry is left out). -/
def register (table : Dict String (Handler K σ)) (h : Handler K σ) :
    Except Exc Unit × Dict String (Handler K σ) :=
  if !table.has h.route then (.ok (), table.set h.route h)
  else (.error (.other s!"Handler command id [{h.route}] already exists"), table)

/-- Registering several handlers one after the other; a refusal does not end the series. -/
def registerAll : List (Handler K σ) → Dict String (Handler K σ) → List (Except Exc Unit) × Dict String (Handler K σ)
  | [], t => ([], t)
  | h :: hs, t =>
    let (r, t') := register t h
    let (rs, t'') := registerAll hs t'
    (r :: rs, t'')

/-! ### Calling application code -/

/-- Run a piece of application code, recording its start and its end. -/
def invoke (who : Who) (args : Kwargs K) (code : M K σ (Val K)) : M K σ (Val K) := fun w =>
  match code { w with trace := w.trace ++ [.call who args w.ctx] } with
  | (r, w') => (r, { w' with trace := w'.trace ++ [.ret who r] })

/-- `middleware.before_routing(**kwargs)`, mm 24. -/
def callBefore (m : Middleware K σ) (kw : Kwargs K) : M K σ (Val K) :=
  invoke (.before m.name) kw (m.before kw)

/-- `middleware.after_routing(**kwargs)`, mm 33. -/
def callAfter (m : Middleware K σ) (kw : Kwargs K) : M K σ (Val K) :=
  invoke (.after m.name) kw (m.after kw)

/-! ### Middleware -/

/-- The loop of `run_before_routing`, mm 22-25. -/
def beforeLoop : List (Middleware K σ) → Kwargs K → Val K → M K σ (Val K)
  | [], _, p => M.pure p
  | m :: ms, kw, p =>
    M.bind (callBefore m (kw.set "protocol_dto" p)) fun p' =>
      beforeLoop ms (kw.set "protocol_dto" p) p'

/-- `run_before_routing`, mm 18-25. -/
def runBefore (ms : List (Middleware K σ)) (kw : Kwargs K) : M K σ (Val K) :=
  if ms.length < 1 then M.pure ((kw.get? "protocol_dto").getD .none)
  else beforeLoop ms kw ((kw.get? "protocol_dto").getD .none)

/-- The loop of `run_after_routing`, mm 31-34. -/
def afterLoop : List (Middleware K σ) → Kwargs K → Val K → M K σ (Val K)
  | [], _, r => M.pure r
  | m :: ms, kw, r =>
    M.bind (callAfter m (kw.set "response_dto" r)) fun r' =>
      afterLoop ms (kw.set "response_dto" r) r'

/-- `run_after_routing`, mm 27-34. -/
def runAfter (ms : List (Middleware K σ)) (kw : Kwargs K) : M K σ (Val K) :=
  if ms.length < 1 then M.pure ((kw.get? "response_dto").getD .none)
  else afterLoop ms kw ((kw.get? "response_dto").getD .none)

/-! ### Handlers -/

/-- `set(inspect.signature(function).parameters)`, ep 15: the names of all parameters. -/
def acceptedParams (ps : List Param) : List String := ps.map Param.name

/-- Python's check of a call with keyword arguments only: every keyword must name a parameter that can be
given by keyword (unless there is a `**` parameter), and every parameter without default must be given. -/
def bindable (ps : List Param) (kw : Kwargs K) : Bool :=
  (kw.keys.all fun k => ps.any (fun p => p.name = k && p.kind = .normal) || ps.any (fun p => p.kind = .varKw)) &&
  (ps.all fun p => match p.kind with
    | .normal => p.hasDefault || kw.has p.name
    | .posOnly => p.hasDefault
    | .varArgs => true
    | .varKw => true)

/-- `StandardHandler.run`, sh 20-22. -/
def runStandard (name : String) (ps : List Param) (fn : Kwargs K → M K σ (Val K)) (kw : Kwargs K) :
    M K σ (Val K) :=
  let callKw : Kwargs K := kw.filter fun e => e.1 ∈ acceptedParams ps
  if bindable ps callKw then invoke (.handler name) callKw (fn callKw) else M.raise (.py .typeError)

/-- `BufferedHandler.process_buffered_request(span_key = .., dto = ..)`, buffered_handler.py 27-29, called from
buffered_handler_base.py 189. -/
def processBuffered (name : String) (ps : List Param) (fn : Kwargs K → M K σ (Val K)) (k : K) (dto : Json) :
    M K σ (Val K) :=
  let kw : Kwargs K := [("span_key", .span k), ("dto", .model dto)]
  let callKw : Kwargs K := kw.filter fun e => e.1 ∈ acceptedParams ps
  if bindable ps callKw then invoke (.handler name) callKw (fn callKw) else M.raise (.py .typeError)

/-- `self.run(**kwargs)`: which `run`. For a buffered handler the whole `run` counts as the handler. -/
def run (h : Handler K σ) (kw : Kwargs K) : M K σ (Val K) :=
  match h.body with
  | .standard ps fn => runStandard h.name ps fn kw
  | .buffered r => invoke (.handler h.name) kw (r kw)

/-- `attempt_request`, hb 26-28: `protocol_dto` is taken out of the keyword arguments; `.data` of something
that is not a request raises `AttributeError`; `**data` of something that is not a dictionary raises
`TypeError`; then the data transfer object is built. -/
def attempt (h : Handler K σ) (kw : Kwargs K) : M K σ (Val K) :=
  match kw.get? "protocol_dto" with
  | none => M.raise (.py .typeError)
  | some (.req r) => match r.data with
    | .obj fields => match h.build fields with
      | .error e => M.raise e
      | .ok d => run h ((kw.erase "protocol_dto").set "dto" (.model d))
    | _ => M.raise (.py .typeError)
  | some _ => M.raise (.py .attributeError)

/-! ### Routing -/

/-- `except ApplicationProcessingException as e: raise RouterProcessingException(...)`, rr 66-67. -/
def catchApp (route : String) (m : M K σ (Val K)) : M K σ (Val K) := fun w =>
  match m w with
  | (.error (.app msg), w') => (.error (routerProcessing route msg), w')
  | r => r

/-- The `try` body of `route_request`, rr 59-65. -/
def routeBody (S : Server K σ) (h : Handler K σ) (r : Req K) (kw : Kwargs K) : M K σ (Val K) :=
  M.bind (runBefore S.middlewares (kw.set "protocol_dto" (.req r))) fun p =>
  M.bind (attempt h ((kw.set "protocol_dto" (.req r)).set "protocol_dto" p)) fun v =>
  runAfter S.middlewares
    ((((kw.set "protocol_dto" (.req r)).set "protocol_dto" p).set "response_dto" v).set "protocol_dto" p)

/-- `RequestRouter.route_request`, rr 54-67. -/
def route (S : Server K σ) (r : Req K) (kw : Kwargs K) : M K σ (Val K) :=
  match S.table.get? r.routeKey with
  | none => M.raise (unknownRoute r.routeKey)
  | some h => catchApp r.routeKey (routeBody S h r kw)

/-! ### The server -/

/-- `RequestDTO(**request_dict)`, sb 36: `**` of something that is not a dictionary raises `TypeError`;
further fields are ignored. -/
def requestDto (S : Server K σ) : Json → Except Exc (Req K)
  | .obj fields =>
    match Dict.get? fields "route_key", Dict.get? fields "span_key", Dict.get? fields "data" with
    | some (.str route), some sk, some d =>
      match S.spanOf sk with
      | some k => .ok { routeKey := route, spanKey := k, data := d }
      | none => .error (.validation (S.why fields))
    | _, _, _ => .error (.validation (S.why fields))
  | _ => .error (.py .typeError)

/-- The `except` clauses, sb 54-77. -/
def respond (k : Option K) : Exc → Except Exc (Resp K)
  | .json m => .ok { spanKey := k, status := statusProtocolParsing, data := .other (.str m) }
  | .validation m => .ok { spanKey := k, status := statusValidation, data := .other (.str m) }
  | .routing st m => .ok { spanKey := k, status := st, data := .other (.str m) }
  | .base => .error .base
  | e => .ok { spanKey := k, status := statusUnhandled, data := .other (.str e.text) }

/-- The inner `try` body, sb 40-51. -/
def serve (S : Server K σ) (r : Req K) : M K σ (Resp K) :=
  M.bind (route S r [("span_key", .span r.spanKey)]) fun v w =>
    (.ok { spanKey := some r.spanKey, status := statusSuccess, data := v },
      { w with served := w.served ++ [r.routeKey] })

/-- Code run with the context variable set to `k` and set back afterwards, sb 38-39, 52-53, rc 20-25. The
token returned by `set` holds the previous value. -/
def withContext {α : Type} (k : K) (m : M K σ α) : M K σ α := fun w =>
  let token := w.ctx
  match m { w with ctx := some k, trace := w.trace ++ [.enter k] } with
  | (r, w') => (r, { w' with ctx := token, trace := w'.trace ++ [.leave] })

/-- `ServerBase._route_request`, sb 31-77. -/
def routeRequest (S : Server K σ) (text : String) : M K σ (Resp K) := fun w =>
  match S.loads text with
  | .error e => (respond none e, w)
  | .ok j => match requestDto S j with
    | .error e => (respond none e, w)
    | .ok r => match withContext r.spanKey (serve S r) w with
      | (.ok resp, w') => (.ok resp, w')
      | (.error e, w') => (respond (some r.spanKey) e, w')

/-! ### Application code that handles requests itself

Code written against the public interface: it can read the context variable (through log formatting and the
tracing package), change its own state, and have a request handled within its own task. -/

/-- A piece of application code. -/
inductive Code (K σ α : Type) where
  | done (r : Except Exc α)
  | look (next : Option K → Code K σ α)
  | state (f : σ → σ) (next : σ → Code K σ α)
  | request (text : String) (next : Except Exc (Resp K) → Code K σ α)

/-- Running it, given how requests are handled. -/
def Code.exec {α : Type} (handle : String → M K σ (Resp K)) : Code K σ α → M K σ α
  | .done r => fun w => (r, w)
  | .look next => fun w => (next w.ctx).exec handle { w with trace := w.trace ++ [.look w.ctx] }
  | .state f next => fun w => (next (f w.app)).exec handle { w with app := f w.app }
  | .request text next => fun w => match handle text w with
    | (r, w') => (next r).exec handle w'

/-- A server whose hooks and endpoint functions are such code. -/
structure App (K σ : Type) where
  loads : String → Except Exc Json
  spanOf : Json → Option K
  why : List (String × Json) → String
  hooks : List (String × (Kwargs K → Code K σ (Val K)) × (Kwargs K → Code K σ (Val K)))
  endpoints : List (String × List Param × (List (String × Json) → Except Exc Json) × (Kwargs K → Code K σ (Val K)))

/-- The server built from `app`, given how requests made by its own code are handled. -/
def App.server (app : App K σ) (handle : String → M K σ (Resp K)) : Server K σ where
  loads := app.loads
  spanOf := app.spanOf
  why := app.why
  middlewares := app.hooks.map fun (n, b, a) =>
    { name := n, before := fun kw => (b kw).exec handle, after := fun kw => (a kw).exec handle }
  table := app.endpoints.map fun (n, ps, build, f) =>
    (n, { name := n, route := n, build := build, body := .standard ps fun kw => (f kw).exec handle })

/-- Handling a request with requests nested up to `depth`; a request nested deeper is cancelled. -/
def App.handle (app : App K σ) : Nat → String → M K σ (Resp K)
  | 0 => fun _ => M.raise .base
  | depth + 1 => routeRequest (app.server (app.handle depth))

end Verif.Server
