import Verif.Py.Basic

/-!
# Model of declaring and opening components

The decorators `endpoint` (`ekosis/requests/endpoint.py` 12-19), `buffered_endpoint` (`ekosis/requests/buffered_endpoint.py` 21-36, "be") and
`buffered_sender` (`ekosis/sending/buffered_sender.py` 24-44, "bse"), the router's table (`ekosis/requests/request_router.py`, "rr"), the keepers
(`ekosis/state_keepers/buffered_handler_keeper.py` 15-16, `ekosis/state_keepers/buffered_sender_keeper.py` 15-20, "bsk"), and the opening at the start of
an application (`ekosis/application_base.py`, "ab").

Router and keepers are classes with the metaclass `SingletonType` (`ekosis/util/singleton.py` 2-9), so that every decorator finds the same
tables: `instances` below.

Simplifications. Objects are numbers; what opening does to the files is in `Life` and `Queue`. Ordinary senders have nothing to open.
-/

namespace Verif.Wiring

open Verif.Py

/-- What the decorators are applied to. -/
inductive Decl where
  | endpoint (route : String)
  | bufferedEndpoint (route : String)
  | bufferedSender (route : String)
  deriving DecidableEq, Repr

/-- The state of a process. `made`: the objects made by the decorators, in order, each with the number of times `setup` was called on it;
before the first time its `queue` is `None`, buffered_handler_base.py 51, buffered_sender_base.py 46. -/
structure St where
  made : List (Decl × Nat) := []
  /-- `__routing_table`, rr 37 -/
  table : Dict String Nat := []
  /-- `__buffered_handlers` -/
  handlers : Dict String Nat := []
  /-- `__buffered_senders`, bsk 9 -/
  senders : Dict String Nat := []
  deriving DecidableEq, Repr

/-- `register_handler`, rr 40-45. -/
def register (s : St) (route : String) (i : Nat) : Except Unit St :=
  if s.table.has route then .error () else .ok { s with table := s.table.set route i }

/-- A decorator is applied; `.error` stands for the exception of rr 45. The object is made before. -/
def declare (s : St) (d : Decl) : Except Unit Unit × St :=
  let i := s.made.length
  let s := { s with made := s.made ++ [(d, 0)] }
  match d with
  | .endpoint r => match register s r i with
    | .error e => (.error e, s)
    | .ok s => (.ok (), s)
  | .bufferedEndpoint r => match register s r i with
    | .error e => (.error e, s)
    | .ok s => (.ok (), { s with handlers := s.handlers.set r i })
  | .bufferedSender r => (.ok (), { s with senders := s.senders.set r i })

/-- Several, whether or not exceptions are caught in between. -/
def declareAll : St → List Decl → St
  | s, [] => s
  | s, d :: ds => declareAll (declare s d).2 ds

/-- The object is a buffered endpoint: `isinstance`, rr 50. -/
def isBufferedEndpoint (s : St) (i : Nat) : Bool :=
  match s.made[i]? with
  | some (.bufferedEndpoint _, _) => true
  | _ => false

/-- `get_buffered_handlers`, rr 47-52. -/
def getHandlers (s : St) : List Nat := (s.table.map Prod.snd).filter (isBufferedEndpoint s)

/-- `get_buffered_senders`, bsk 15-16. -/
def getSenders (s : St) : List Nat := s.senders.map Prod.snd

/-- `setup` of one object. -/
def setup (s : St) (i : Nat) : St := { s with made := s.made.modify i fun x => (x.1, x.2 + 1) }

/-- `__setup_buffered_handlers` and `__setup_buffered_senders`, ab 186-204, called in `__start`, ab 282-283. -/
def start (s : St) : St := (getHandlers s ++ getSenders s).foldl setup s

/-- A message is pushed through the object, by its decorated function (bse 37-43) or by the router: without `setup`, `self.queue` is `None`. -/
def push (s : St) (i : Nat) : Except PyErr Unit :=
  match s.made[i]? with
  | some (_, 0) => .error .attributeError
  | some _ => .ok ()
  | none => .error .indexError

/-- The buffered sender that a management command for a route acts on, bsk 23-26 and so on. -/
def managedSender (s : St) (route : String) : Option Nat := s.senders.get? route

/-- The buffered endpoint that a management command for a route acts on, buffered_handler_keeper.py 19-22 and so on. -/
def managedHandler (s : St) (route : String) : Option Nat := s.handlers.get? route

/-! ### Singletons -/

/-- `SingletonType.__call__`, singleton.py 5-9: `make` is what the constructor does, with the exception it may raise. The result is the
object, which is numbered by the constructions. -/
def instances {C : Type} [DecidableEq C] (made : Nat) (table : Dict C Nat) (cls : C) (make : Except PyErr Unit) : Except PyErr Nat × Nat × Dict C Nat :=
  match table.get? cls with
  | some o => (.ok o, made, table)
  | none => match make with
    | .error e => (.error e, made, table)
    | .ok _ => (.ok made, made + 1, table.set cls made)

/-- Calls of classes, one after the other. -/
def callAll {C : Type} [DecidableEq C] : Nat → Dict C Nat → List (C × Except PyErr Unit) → List (Except PyErr Nat)
  | _, _, [] => []
  | m, t, (c, k) :: cs => (instances m t c k).1 :: callAll (instances m t c k).2.1 (instances m t c k).2.2 cs

end Verif.Wiring
