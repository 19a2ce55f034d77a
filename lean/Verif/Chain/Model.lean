import Verif.Wire.Model

/-!
# Model of a span key on its way through applications

`ekosis/sending/sender.py` ("se"), `ekosis/sending/buffered_sender.py` ("bse"), `ekosis/sending/buffered_sender_class.py`,
`ekosis/sending/buffered_sender_base.py` ("bs"), `ekosis/sending/sender_base.py`, `ClientBase.send_message` (`ekosis/clients/client_base.py`,
"cb"), `ServerBase._route_request` (`ekosis/servers/server_base.py`) and `StandardHandler.run`, `BufferedHandler.process_buffered_request`
(`ekosis/requests/standard_handler.py` 20-22, `ekosis/requests/buffered_handler.py` 27-29).

Simplifications. `D` stands for payloads, answers and every other value that is not a span key. Whether a message is delivered, and when, is
left open (see `Delivery`); here it is followed which keys requests carry that are delivered.
-/

namespace Verif.Chain

open Verif.Py Verif.Span Verif.Wire

/-- A Python value. -/
inductive Val (D : Type) where
  | none
  | key (k : SpanKey)
  | other (d : D)

/-- The arguments at a call: positional ones, and keyword ones (Python lets no name stand twice). -/
structure Args (D : Type) where
  pos : List (Val D) := []
  kw : List (String × Val D) := []

/-- A function under the decorator: its named parameters, those without default, whether it has `*args` and `**kwargs`, and what it
returns. -/
structure Fn (D : Type) where
  params : List String
  required : List String
  star : Bool
  starstar : Bool
  body : Args D → Except PyErr D

variable {D : Type}

/-- Python binds the arguments of a call, or raises `TypeError`: too many positional ones, a keyword that is no parameter or is given twice, a
parameter without a value. -/
def Fn.binds (f : Fn D) (a : Args D) : Bool :=
  (a.pos.length ≤ f.params.length || f.star) &&
  a.kw.all (fun x => (f.params.contains x.1 && !(f.params.take a.pos.length).contains x.1) || (!f.params.contains x.1 && f.starstar)) &&
  f.required.all fun p => (f.params.take a.pos.length).contains p || a.kw.any fun x => x.1 = p

/-- `await function(*args, **kwargs)`, se 22, bse 42. -/
def Fn.call (f : Fn D) (a : Args D) : Except PyErr D := if f.binds a then f.body a else .error .typeError

/-- `span_key_to_use` of the wrappers, se 17-20, bse 39-41. -/
def wrapperKey (a : Args D) : Val D :=
  match a.kw.find? fun x => x.1 = "span_key" with
  | some x => x.2
  | none => .none

/-- `span_key if span_key else SpanKey.generate()`, cb 72, bs 56, and the check of the field `span_key` of `RequestDTO`, cb 75, or `PendingEntry`:
a `SpanKey` is always true in a condition; other values are refused unless they count as false. `fresh` is what `generate` would return.
`truthy` is the truth value of other values. -/
def useKey (truthy : D → Bool) (fresh : SpanKey) : Val D → Except PyErr SpanKey
  | .none => .ok fresh
  | .key k => .ok k
  | .other d => if truthy d then .error .valueError else .ok fresh

/-- A call of a function decorated with `sender` or `buffered_sender`: the key and payload that are sent or queued. se 15-24, bse 37-43. -/
def callSender (truthy : D → Bool) (fresh : SpanKey) (f : Fn D) (a : Args D) : Except PyErr (SpanKey × D) :=
  match f.call a with
  | .error e => .error e
  | .ok d => match useKey truthy fresh (wrapperKey a) with
    | .error e => .error e
    | .ok k => .ok (k, d)

/-- A key that is written to JSON text and read back `n` times: once on the wire (cb 75-76), and every time its message passes through the
database of a buffered sender or a buffered endpoint. -/
def carry : Nat → SpanKey → Option SpanKey
  | 0, k => some k
  | n + 1, k => match spanOf (spanJson k) with
    | some k' => carry n k'
    | none => none

/-- What the function of an endpoint does: it calls senders, in any number and depending on the answers, itself or in tasks it leaves
behind, and ends. -/
inductive Prog (D : Type) where
  | ret
  | call (f : Fn D) (a : Args D) (route : String) (next : Except PyErr D → Prog D)
  | soon (body next : Prog D)

/-- An endpoint, ordinary or buffered: whether its function has a parameter `span_key`, and what it does. -/
structure Handler (D : Type) where
  wants : Bool
  run : Val D → D → Prog D

/-- A request as it reaches the function of an endpoint. -/
structure Req (D : Type) where
  route : String
  key : SpanKey
  data : D

/-- The request may reach an endpoint because of a call in the program. -/
inductive Sends (truthy : D → Bool) : Prog D → Req D → Prop where
  | here {f a route next fresh k d k' n} : callSender truthy fresh f a = .ok (k, d) → carry n k = some k' →
      Sends truthy (.call f a route next) ⟨route, k', d⟩
  | next {f a route next res r} : Sends truthy (next res) r → Sends truthy (.call f a route next) r
  | soonBody {b n r} : Sends truthy b r → Sends truthy (.soon b n) r
  | soonNext {b n r} : Sends truthy n r → Sends truthy (.soon b n) r

/-- `call_kwargs`, standard_handler.py 21, buffered_handler.py 28: the key is handed over if there is a parameter for it. -/
def Handler.code (h : Handler D) (r : Req D) : Prog D := h.run (if h.wants then .key r.key else .none) r.data

/-- The request `r'` may come about in the handling of the request `r`. `apps` has the endpoints of all applications. -/
def Causes (truthy : D → Bool) (apps : String → Option (Handler D)) (r r' : Req D) : Prop :=
  ∃ h, apps r.route = some h ∧ Sends truthy (h.code r) r'

end Verif.Chain
