import Verif.Buffered.Model
import Verif.Span.Model
import Verif.Stats.Model
import Verif.Config.Model

/-!
# The command line tools and the management endpoints they call

ekosis/cli/{bem,bsm,stat}.py with shared_functions.py, shared_argument_parser.py, shared_queue_argument_parser.py and the classes in
cli/senders; on the server standard_endpoints/{buffered_handler_manager,buffered_sender_manager,statistics}.py with
state_keepers/{buffered_handler_keeper,buffered_sender_keeper}.py. Not modelled here: what is printed (`Verif.Cli.Screen`), the transport between the two (`Verif.Client`,
`Verif.Server`), and how argparse takes a command line apart (`Verif.Args`, which is joined to the tools here by C103).
-/

namespace Verif.Cli

open Verif.Py Verif.Span Verif.Pending Verif.Buffered Verif.Stats

/-! ### Options -/

/-- The `store_true` options of `queue_one_action_group` for endpoints, shared_queue_argument_parser.py 36-42 and 16-24 (by destination). -/
def endpointGroup : List String :=
  ["pause_receiving", "pause_processing", "unpause_receiving", "unpause_processing", "pause_all", "unpause_all",
   "error_10", "reprocess_one", "reprocess_all", "inspect_request", "pop_request", "clear"]

/-- The same for senders, shared_queue_argument_parser.py 45-48 and 16-24. -/
def senderGroup : List String :=
  ["pause_sending", "unpause_sending", "error_10", "reprocess_one", "reprocess_all", "inspect_request", "pop_request", "clear"]

/-- `argparse.Namespace`: the options that are texts, and the attributes that are flags. -/
structure Namespace where
  serverType : String
  details : Str
  routeKey : Str
  spanKey : Option Str
  flags : Dict String Bool

/-- What is typed. -/
structure Typed where
  serverType : String
  details : Str
  routeKey : Str
  spanKey : Option Str := none
  /-- the flags, by destination -/
  options : List String := []

/-- How a run of a tool ends: `sys.exit`, an exception, or one request sent to a server. -/
inductive Run (α : Type) where
  | exit (code : Nat)
  | raised (e : PyErr)
  | sent (r : α)
  deriving DecidableEq

/-- `parse_args`: `exit(2)` for a server type that is no choice, an unknown option, or two different options of the mutually exclusive
group; the required texts are assumed to be there. -/
def parse (group : List String) (t : Typed) : Option Namespace :=
  if t.serverType ∉ ["tcp", "udp", "uds"] then none
  else if t.options.any (fun o => o ∉ group) then none
  else if t.options.dedup.length > 1 then none
  else some ⟨t.serverType, t.details, t.routeKey, t.spanKey, group.map fun o => (o, decide (o ∈ t.options))⟩

/-- `command_line_args.name`. -/
def Namespace.attr (ns : Namespace) (name : String) : Except PyErr Bool :=
  match ns.flags.get? name with
  | some b => .ok b
  | none => .error .attributeError

/-! ### Clients -/

/-- The clients the tools use. -/
inductive Client where
  | tcp (host : Str) (port : Int)
  | udp (host : Str) (port : Int)
  | uds (path : Str)
  deriving DecidableEq, Repr

/-- `make_tcp_udp_host_port`, shared_functions.py 9-15. `print_error` takes two arguments and is called with one. -/
def hostPort (details : Str) : Except PyErr (Str × Int) :=
  match Str.split ':' details with
  | [host, port] =>
    if host = [] then .error .typeError
    else if port = [] then .error .typeError
    else match Str.toInt port with
      | .ok p => .ok (host, p)
      | .error e => .error e
  | _ => .error .valueError

/-- `get_client`, shared_functions.py 18-27. -/
def getClient (serverType : String) (details : Str) : Except PyErr Client :=
  if serverType = "tcp" then
    match hostPort details with
    | .ok (h, p) => .ok (.tcp h p)
    | .error e => .error e
  else if serverType = "udp" then
    match hostPort details with
    | .ok (h, p) => .ok (.udp h p)
    | .error e => .error e
  else .ok (.uds details)

/-! ### Requests -/

/-- `QManagementRequestDto` and `QManagementItemRequestDto` with the route they are sent to. -/
structure Request where
  route : String
  queue : Str
  key : Option SpanKey
  deriving DecidableEq

/-- A branch `if command_line_args.x: await Sender(client).send(route_key); return`. -/
def branch (ns : Namespace) (name route : String) (key : Option SpanKey) (rest : Run Request) : Run Request :=
  match ns.attr name with
  | .error e => .raised e
  | .ok true => .sent ⟨route, ns.routeKey, key⟩
  | .ok false => rest

/-- A list of attributes is read, then `any_true_check`, shared_functions.py 39-43. -/
def anyTrue (ns : Namespace) : List String → Except PyErr Bool
  | [] => .ok false
  | n :: rest => match ns.attr n with
    | .error e => .error e
    | .ok b => match anyTrue ns rest with
      | .error e => .error e
      | .ok b' => .ok (b || b')

/-- `do_endpoint_action`, bem.py 31-91, with the routes of cli/senders/buffered_endpoint_management.py 9-81. -/
def endpointAction (ns : Namespace) : Run Request :=
  match anyTrue ns ["pause_receiving", "pause_processing", "pause_all", "unpause_receiving", "unpause_processing", "unpause_all",
      "error_10", "reprocess_all", "clear", "reprocess_one", "inspect_request", "pop_request"] with
  | .error e => .raised e
  | .ok false => .sent ⟨"eco.buffered_handler.data", ns.routeKey, none⟩
  | .ok true =>
    branch ns "pause_receiving" "eco.buffered_handler.receiving.pause" none <|
    branch ns "pause_processing" "eco.buffered_handler.processing.pause" none <|
    branch ns "pause_all" "eco.buffered_handler.all.pause" none <|
    branch ns "unpause_receiving" "eco.buffered_handler.receiving.unpause" none <|
    branch ns "unpause_processing" "eco.buffered_handler.processing.unpause" none <|
    branch ns "unpause_all" "eco.buffered_handler.all.unpause" none <|
    branch ns "error_10" "eco.buffered_handler.errors.get_first_10" none <|
    branch ns "reprocess_all" "eco.buffered_handler.errors.reprocess.all" none <|
    branch ns "clear" "eco.buffered_handler.errors.clear" none <|
    match ns.spanKey with
    | none => .exit 1
    | some [] => .exit 1
    | some text => match SpanKey.ofHex text with
      | .error e => .raised e
      | .ok k =>
        branch ns "reprocess_one" "eco.buffered_handler.errors.reprocess.one" (some k) <|
        branch ns "inspect_request" "eco.buffered_handler.errors.inspect_request" (some k) <|
        branch ns "pop_request" "eco.buffered_handler.errors.pop_request" (some k) <|
        .exit 0

/-- `do_sender_action`, bsm.py 27-79, with the routes of cli/senders/buffered_sender_management.py 9-57. The first condition is an `or`,
read from the left. -/
def senderAction (ns : Namespace) : Run Request :=
  match ns.attr "pause_receiving" with
  | .error e => .raised e
  | .ok true => .exit 1
  | .ok false => match anyTrue ns ["pause_processing", "unpause_receiving", "unpause_processing"] with
    | .error e => .raised e
    | .ok true => .exit 1
    | .ok false => match anyTrue ns ["data", "pause_all", "unpause_all", "error_10", "reprocess_all", "clear", "reprocess_one",
        "inspect_request", "pop_request"] with
      | .error e => .raised e
      | .ok false => .sent ⟨"eco.buffered_sender.data", ns.routeKey, none⟩
      | .ok true =>
        branch ns "data" "eco.buffered_sender.data" none <|
        branch ns "pause_all" "eco.buffered_sender.send_process.pause" none <|
        branch ns "unpause_all" "eco.buffered_sender.send_process.unpause" none <|
        branch ns "error_10" "eco.buffered_sender.errors.get_first_10" none <|
        branch ns "reprocess_all" "eco.buffered_sender.errors.reprocess.all" none <|
        branch ns "clear" "eco.buffered_sender.errors.clear" none <|
        match ns.spanKey with
        | none => .exit 1
        | some [] => .exit 1
        | some text => match SpanKey.ofHex text with
          | .error e => .raised e
          | .ok k =>
            branch ns "reprocess_one" "eco.buffered_sender.errors.reprocess.one" (some k) <|
            branch ns "inspect_request" "eco.buffered_sender.errors.inspect_request" (some k) <|
            branch ns "pop_request" "eco.buffered_sender.errors.pop_request" (some k) <|
            .exit 0

/-- `main`, bem.py 94-103 and bsm.py 81-90: the client, then the route key, then the action. -/
def tool (group : List String) (action : Namespace → Run Request) (t : Typed) : Run (Client × Request) :=
  match parse group t with
  | none => .exit 2
  | some ns => match getClient ns.serverType ns.details with
    | .error e => .raised e
    | .ok c =>
      if ns.routeKey = [] then .exit 1
      else match action ns with
        | .exit n => .exit n
        | .raised e => .raised e
        | .sent r => .sent (c, r)

/-- bem.py -/
def bem : Typed → Run (Client × Request) := tool endpointGroup endpointAction

/-- bsm.py -/
def bsm : Typed → Run (Client × Request) := tool senderGroup senderAction

/-! ### The server's side -/

variable {D M R S : Type}

/-- What a management endpoint answers. `message` is left out where the other parts tell the answers apart. -/
inductive Answer (I D : Type) where
  /-- "No queue for route key", "No buffered sender with route key" -/
  | noQueue
  /-- `queue_data` is the information about the queue -/
  | info (i : I)
  /-- `queue_data` is a list of texts -/
  | keys (ks : List Str)
  /-- `queue_data` and `request_data` -/
  | request (i : I) (d : D)
  /-- "No request with span-key" -/
  | noRequest
  /-- the endpoint raised -/
  | raised (e : PyErr)
  /-- the request does not fit the endpoint's DTO -/
  | invalid
  /-- no such endpoint -/
  | unknown
  deriving DecidableEq

/-- `BufferedEndpointInformationDto` without the route key. -/
structure HInfo where
  receivingPaused : Bool
  processingPaused : Bool
  pending : Nat
  error : Nat
  deriving DecidableEq, Repr

/-- `BufferedSenderInformationDto` without the route key. -/
structure SInfo where
  paused : Bool
  pending : Nat
  error : Nat
  deriving DecidableEq, Repr

/-- `__get_queue_information`, buffered_handler_keeper.py 25-31. -/
def hInfo (h : Handler.HSt SpanKey D M R S) : HInfo :=
  ⟨h.recvPaused, h.core.paused, h.core.pair.pending.size, h.core.pair.error.size⟩

/-- `__get_queue_information`, buffered_sender_keeper.py 29-34. -/
def sInfo (s : St SpanKey D M R S) : SInfo := ⟨s.paused, s.pair.pending.size, s.pair.error.size⟩

/-- The common frame of the keepers' methods: nothing for an unknown route key, otherwise a method of the object kept under it. -/
def keeper {H I : Type} (ks : Dict Str H) (queue : Str) (f : H → Answer I D × H) : Answer I D × Dict Str H :=
  match ks.get? queue with
  | none => (.noQueue, ks)
  | some h => ((f h).1, ks.set queue (f h).2)

/-- How the keepers answer for one request, buffered_handler_keeper.py 87-92, 98-103, 123-128 and the same in the sender's keeper: `result` is
what the object's method gave, `i` the information afterwards. -/
def itemAnswer {I : Type} (i : I) : Except PyErr (Option D) → Answer I D
  | .error e => .raised e
  | .ok none => .noRequest
  | .ok (some d) => .request i d

/-- An endpoint whose DTO has a span key. -/
def item {I H : Type} (ks : Dict Str H) (r : Request) (f : SpanKey → Answer I D × Dict Str H) : Answer I D × Dict Str H :=
  match r.key with
  | none => (.invalid, ks)
  | some k => f k

/-- The endpoints of buffered_handler_manager.py 27-204 with the methods of buffered_handler_keeper.py 19-128 they call. The object's
methods are those of `Verif.Buffered`, its results those of `Verif.Pending`. -/
def serveHandlers (cfg : Cfg SpanKey D M R S) (truthy : D → Bool) (ks : Dict Str (Handler.HSt SpanKey D M R S)) (r : Request) :
    Answer HInfo D × Dict Str (Handler.HSt SpanKey D M R S) :=
  if r.route = "eco.buffered_handler.data" then keeper ks r.queue fun h => (.info (hInfo h), h)
  else if r.route = "eco.buffered_handler.receiving.pause" then keeper ks r.queue fun h =>
    let h := { h with recvPaused := true }
    (.info (hInfo h), h)
  else if r.route = "eco.buffered_handler.receiving.unpause" then keeper ks r.queue fun h =>
    let h := { h with recvPaused := false, core := h.core.check }
    (.info (hInfo h), h)
  else if r.route = "eco.buffered_handler.processing.pause" then keeper ks r.queue fun h =>
    let h := { h with core := h.core.pause }
    (.info (hInfo h), h)
  else if r.route = "eco.buffered_handler.processing.unpause" then keeper ks r.queue fun h =>
    let h := { h with core := h.core.unpause }
    (.info (hInfo h), h)
  else if r.route = "eco.buffered_handler.all.pause" then keeper ks r.queue fun h =>
    let h := { h with recvPaused := true }
    let h := { h with core := h.core.pause }
    (.info (hInfo h), h)
  else if r.route = "eco.buffered_handler.all.unpause" then keeper ks r.queue fun h =>
    let h := { h with recvPaused := false, core := h.core.check }
    let h := { h with core := h.core.unpause }
    (.info (hInfo h), h)
  else if r.route = "eco.buffered_handler.errors.get_first_10" then keeper ks r.queue fun h =>
    (.keys ((h.core.pair.error.firstKeys 10).map SpanKey.text), h)
  else if r.route = "eco.buffered_handler.errors.reprocess.all" then keeper ks r.queue fun h =>
    let h' := { h with core := h.core.reprocessAll cfg }
    match h.core.pair.moveAllN cfg.codecs (h.core.pair.error.size + 1) with
    | some (.ok _, _) => (.info (hInfo h'), h')
    | some (.error e, _) => (.raised e, h')
    | none => (.raised .invalidState, h')
  else if r.route = "eco.buffered_handler.errors.clear" then keeper ks r.queue fun h =>
    let h := { h with core := h.core.clearErrors cfg }
    (.info (hInfo h), h)
  else if r.route = "eco.buffered_handler.errors.reprocess.one" then item ks r fun k => keeper ks r.queue fun h =>
    let h' := { h with core := h.core.reprocessOne cfg k }
    (itemAnswer (hInfo h') (opReprocess truthy cfg.codecs h.core.pair k).1, h')
  else if r.route = "eco.buffered_handler.errors.pop_request" then item ks r fun k => keeper ks r.queue fun h =>
    let h' := { h with core := h.core.popError cfg k }
    (itemAnswer (hInfo h') (opPop truthy cfg.codecs h.core.pair k).1, h')
  else if r.route = "eco.buffered_handler.errors.inspect_request" then item ks r fun k => keeper ks r.queue fun h =>
    (itemAnswer (hInfo h) (opInspect truthy cfg.codecs h.core.pair k), h)
  else (.unknown, ks)

/-- The endpoints of buffered_sender_manager.py 26-149 with the methods of buffered_sender_keeper.py 23-103. -/
def serveSenders (cfg : Cfg SpanKey D M R S) (truthy : D → Bool) (ks : Dict Str (St SpanKey D M R S)) (r : Request) :
    Answer SInfo D × Dict Str (St SpanKey D M R S) :=
  if r.route = "eco.buffered_sender.data" then keeper ks r.queue fun s => (.info (sInfo s), s)
  else if r.route = "eco.buffered_sender.send_process.pause" then keeper ks r.queue fun s =>
    let s := s.pause
    (.info (sInfo s), s)
  else if r.route = "eco.buffered_sender.send_process.unpause" then keeper ks r.queue fun s =>
    let s := s.unpause
    (.info (sInfo s), s)
  else if r.route = "eco.buffered_sender.errors.get_first_10" then keeper ks r.queue fun s =>
    (.keys ((s.pair.error.firstKeys 10).map SpanKey.text), s)
  else if r.route = "eco.buffered_sender.errors.reprocess.all" then keeper ks r.queue fun s =>
    let s' := s.reprocessAll cfg
    match s.pair.moveAllN cfg.codecs (s.pair.error.size + 1) with
    | some (.ok _, _) => (.info (sInfo s'), s')
    | some (.error e, _) => (.raised e, s')
    | none => (.raised .invalidState, s')
  else if r.route = "eco.buffered_sender.errors.clear" then keeper ks r.queue fun s =>
    let s := s.clearErrors cfg
    (.info (sInfo s), s)
  else if r.route = "eco.buffered_sender.errors.reprocess.one" then item ks r fun k => keeper ks r.queue fun s =>
    let s' := s.reprocessOne cfg k
    (itemAnswer (sInfo s') (opReprocess truthy cfg.codecs s.pair k).1, s')
  else if r.route = "eco.buffered_sender.errors.pop_request" then item ks r fun k => keeper ks r.queue fun s =>
    let s' := s.popError cfg k
    (itemAnswer (sInfo s') (opPop truthy cfg.codecs s.pair k).1, s')
  else if r.route = "eco.buffered_sender.errors.inspect_request" then item ks r fun k => keeper ks r.queue fun s =>
    (itemAnswer (sInfo s) (opInspect truthy cfg.codecs s.pair k), s)
  else (.unknown, ks)

/-! ### Statistics -/

/-- `--type`, stat.py 9-20. -/
structure StatTyped where
  serverType : String
  details : Str
  type : Option String := none

/-- stat.py 25-27 with cli/senders/statistics.py 27-30; the request is the type asked for. -/
def stat (t : StatTyped) : Run (Client × String) :=
  let type := t.type.getD "current"
  if t.serverType ∉ ["tcp", "udp", "uds"] then .exit 2
  else if type ∉ ["current", "gathered", "full"] then .exit 2
  else match getClient t.serverType t.details with
    | .error e => .raised e
    | .ok c => .sent (c, type)

/-- What `eco.statistics.get` answers. -/
inductive StatAnswer where
  | one (d : Store)
  | all (ds : List Store)
  | raised (e : PyErr)

/-- `eco_statistics_get`, standard_endpoints/statistics.py 8-19, with statistics_keeper.py 72-83. -/
def serveStatistics (s : Keeper) (now : ℚ) (sizes : String → ℚ) (type : String) : StatAnswer × Keeper :=
  if type = "current" then
    match update s now sizes with
    | (.ok _, s') => (.one s'.current, s')
    | (.error e, s') => (.raised e, s')
  else if type = "full" then (.all s.history, s)
  else (.one (s.history.headD []), s)

end Verif.Cli
