import Verif.Server.Model

/-!
# What request handling should look like from outside

Statements about requests, responses and traces; nothing here refers to how the server, the router or
the middleware manager work. (Types of requests, responses, events and of the application's own code are
taken from the model.)
-/

namespace Verif.Server.Spec

open Verif.Py Verif.Server

variable {K σ : Type}

/-! ### Context -/

/-- A trace in which the context always is the innermost request under way: `c` outside of the requests
bracketed in the trace, and `some k` inside of the brackets of a request with key `k`. -/
inductive InRequest : Option K → List (Event K) → Prop where
  | nil {c} : InRequest c []
  | call {c who args es} : InRequest c es → InRequest c (.call who args c :: es)
  | look {c es} : InRequest c es → InRequest c (.look c :: es)
  | ret {c who r es} : InRequest c es → InRequest c (.ret who r :: es)
  | request {c k inner es} : InRequest (some k) inner → InRequest c es →
      InRequest c (.enter k :: (inner ++ .leave :: es))

/-! ### Middleware -/

/-- The before hooks, called in the order of their names, each with the result of its predecessor, up to
the first failure. Arguments: key, names, first value, events, result. -/
inductive BeforeRun (k : K) : List String → Val K → List (Event K) → Except Exc (Val K) → Prop where
  | done {p} : BeforeRun k [] p [] (.ok p)
  | next {n ns p p' c es r} : BeforeRun k ns p' es r →
      BeforeRun k (n :: ns) p
        (.call (.before n) [("span_key", .span k), ("protocol_dto", p)] c :: .ret (.before n) (.ok p') :: es) r
  | fail {n ns p c e} :
      BeforeRun k (n :: ns) p
        [.call (.before n) [("span_key", .span k), ("protocol_dto", p)] c, .ret (.before n) (.error e)] (.error e)

/-- The after hooks, likewise; `p` is the result of the last before hook. -/
inductive AfterRun (k : K) (p : Val K) : List String → Val K → List (Event K) → Except Exc (Val K) → Prop where
  | done {v} : AfterRun k p [] v [] (.ok v)
  | next {n ns v v' c es r} : AfterRun k p ns v' es r →
      AfterRun k p (n :: ns) v
        (.call (.after n) [("span_key", .span k), ("protocol_dto", p), ("response_dto", v)] c ::
          .ret (.after n) (.ok v') :: es) r
  | fail {n ns v c e} :
      AfterRun k p (n :: ns) v
        [.call (.after n) [("span_key", .span k), ("protocol_dto", p), ("response_dto", v)] c,
          .ret (.after n) (.error e)] (.error e)

/-- The handler: not called when there are no arguments for it, otherwise called once with them. -/
inductive HandlerRun (name : String) : Except Exc (Kwargs K) → List (Event K) → Except Exc (Val K) → Prop where
  | refused {e} : HandlerRun name (.error e) [] (.error e)
  | called {args c r} : HandlerRun name (.ok args) [.call (.handler name) args c, .ret (.handler name) r] r

/-- One request through hooks and handler: all before hooks, then the handler on the last result, then
all after hooks; the first failure ends it. `Entry` gives the handler's arguments. -/
inductive Run (k : K) (names : List String) (hname : String) (Entry : Val K → Except Exc (Kwargs K) → Prop)
    (p : Val K) : List (Event K) → Except Exc (Val K) → Prop where
  | before {es e} : BeforeRun k names p es (.error e) → Run k names hname Entry p es (.error e)
  | handler {es1 p' a es2 e} : BeforeRun k names p es1 (.ok p') → Entry p' a → HandlerRun hname a es2 (.error e) →
      Run k names hname Entry p (es1 ++ es2) (.error e)
  | full {es1 p' a es2 v es3 r} : BeforeRun k names p es1 (.ok p') → Entry p' a → HandlerRun hname a es2 (.ok v) →
      AfterRun k p' names v es3 r → Run k names hname Entry p (es1 ++ (es2 ++ es3)) r

/-! ### Arguments of endpoint functions -/

/-- The arguments the framework has to offer. -/
def offered (k : K) (dto : Json) : Kwargs K := [("span_key", .span k), ("dto", .model dto)]

/-- Can a function with these parameters be called when it is given those of the offered arguments that
it declares? -/
def Callable (ps : List Param) : Prop :=
  (∀ p ∈ ps, p.kind = .normal → p.hasDefault = false → p.name = "span_key" ∨ p.name = "dto") ∧
  (∀ p ∈ ps, p.kind = .posOnly → p.hasDefault = true) ∧
  (∀ p ∈ ps, p.name = "span_key" ∨ p.name = "dto" →
    (∃ q ∈ ps, q.name = p.name ∧ q.kind = .normal) ∨ ∃ q ∈ ps, q.kind = .varKw)

/-- `args` are those of the offered arguments whose names are declared. -/
def Declared (ps : List Param) (k : K) (dto : Json) (args : Kwargs K) : Prop :=
  (∀ n v, args.get? n = some v ↔ (n, v) ∈ offered k dto ∧ ∃ p ∈ ps, p.name = n) ∧ args.keys.Nodup

/-- What the handler `h` is given for the request `p` with key `k`: an error when `p` is no request with an
object as data, when the data transfer object cannot be built, or when the function cannot be called;
otherwise its arguments. -/
inductive Entry (h : Handler K σ) (k : K) : Val K → Except Exc (Kwargs K) → Prop where
  | notRequest {p} : (∀ r, p ≠ .req r) → Entry h k p (.error (.py .attributeError))
  | notObject {r} : (∀ f, r.data ≠ .obj f) → Entry h k (.req r) (.error (.py .typeError))
  | invalid {r f e} : r.data = .obj f → h.build f = .error e → Entry h k (.req r) (.error e)
  | notCallable {r f d ps fn} : r.data = .obj f → h.build f = .ok d → h.body = .standard ps fn → ¬ Callable ps →
      Entry h k (.req r) (.error (.py .typeError))
  | declared {r f d ps fn args} : r.data = .obj f → h.build f = .ok d → h.body = .standard ps fn → Callable ps →
      Declared ps k d args → Entry h k (.req r) (.ok args)
  | buffered {r f d fn} : r.data = .obj f → h.build f = .ok d → h.body = .buffered fn →
      Entry h k (.req r) (.ok (offered k d))

/-! ### Status codes -/

/-- The status for the way a request ended behind the parsing of its envelope; `none`: no response. -/
def status : Except Exc (Val K) → Option Int
  | .ok _ => some 0
  | .error (.json _) => some 100
  | .error (.validation _) => some 300
  | .error (.routing s _) => some s
  | .error (.app _) => some 600
  | .error .base => none
  | .error _ => some 999

/-- The data of the response, by the same: what was returned, or the text of what was raised (for an application's own failure with the route). -/
def told (route : String) : Except Exc (Val K) → Val K
  | .ok v => v
  | .error (.json m) => .other (.str m)
  | .error (.validation m) => .other (.str m)
  | .error (.routing _ m) => .other (.str m)
  | .error (.app m) => .other (.str ("status: [600] message: [Processing Failure '" ++ route ++ "', message: '" ++ m ++ "']"))
  | .error (.paused _ m) => .other (.str m)
  | .error (.other m) => .other (.str m)
  | .error (.py _) => .other (.str "")
  | .error .base => .none

/-- A well-formed request object. -/
def Valid (spanOf : Json → Option K) (fields : List (String × Json)) (r : Req K) : Prop :=
  Dict.get? fields "route_key" = some (.str r.routeKey) ∧
  (∃ j, Dict.get? fields "span_key" = some j ∧ spanOf j = some r.spanKey) ∧
  Dict.get? fields "data" = some r.data

/-! ### Application code -/

/-- Code that leaves no trace events (it does not handle requests itself). -/
def Silent {α : Type} (m : M K σ α) : Prop := ∀ w, (m w).2.trace = w.trace

/-- Code that leaves the context as it was and in whose events the context is right. -/
def Proper {α : Type} (m : M K σ α) : Prop := ∀ w, (m w).2.ctx = w.ctx ∧
  ∃ es, (m w).2.trace = w.trace ++ es ∧ InRequest w.ctx es

/-- Everything the application contributed to the server has the property `P`. -/
structure Each (P : M K σ (Val K) → Prop) (S : Server K σ) : Prop where
  before : ∀ m ∈ S.middlewares, ∀ kw, P (m.before kw)
  after : ∀ m ∈ S.middlewares, ∀ kw, P (m.after kw)
  fn : ∀ e ∈ S.table, ∀ ps f, e.2.body = .standard ps f → ∀ kw, P (f kw)
  run : ∀ e ∈ S.table, ∀ f, e.2.body = .buffered f → ∀ kw, P (f kw)

end Verif.Server.Spec
