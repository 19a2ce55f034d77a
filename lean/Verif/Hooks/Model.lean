import Verif.Py.Basic

/-!
# Model of the hooks around buffered endpoints

`BufferedMiddlewareManager` (`ekosis/middleware/buffered_middleware_manager.py`, cited as "bm") as called by the buffered endpoint
(`ekosis/requests/buffered_handler_base.py`, "bh"), and what the queues make of metadata
(`ekosis/queues/pending_queue.py`, "pq"; `ekosis/queues/paginated_queue.py`, "pg").

One message is followed from the moment it is received; the other messages and the pages of the queue are modelled elsewhere (areas
Buffered, Pending and Queue). Hooks and handlers get the message's payload and its metadata as objects and may change them
in place, so they are functions that give back the changed objects, also when they raise. Every attempt has its own hooks and its own
handler: application code that keeps state, and a restart with other middleware, are covered by that.

Simplifications: the list of middlewares does not change while a manager's loop runs over it; nobody keeps a reference to metadata or
payload and changes it after the hook returned; keys of dictionaries are strings or integers; floats are finite and represented by their `repr`.
-/

namespace Verif.Hooks

open Verif.Py

/-- Keys of a Python dictionary. -/
inductive Key where
  | str (s : String)
  | int (i : Int)
  deriving DecidableEq, Repr

/-- Python values, as a hook may put them into metadata. `object` is anything pydantic does not serialise. -/
inductive Val where
  | none
  | bool (b : Bool)
  | int (i : Int)
  | float (repr : String)
  | str (s : String)
  | list (items : List Val)
  | tuple (items : List Val)
  | dict (fields : List (Key × Val))
  | object (id : Nat)

/-- A dictionary of metadata. -/
abbrev Meta := Dict Key Val

/-- The text of a key in JSON. -/
def Key.text : Key → String
  | .str s => s
  | .int i => toString i

mutual

/-- A value written by `model_dump_json` (pg 44) and read back by `json.loads` (pg 48, 295, 309): a tuple comes back as a list, keys come
back as strings, of equal keys the last value stays; `none` if pydantic raises. -/
def Val.stored : Val → Option Val
  | .none => some .none
  | .bool b => some (.bool b)
  | .int i => some (.int i)
  | .float r => some (.float r)
  | .str s => some (.str s)
  | .list items => (storedList items).map .list
  | .tuple items => (storedList items).map .list
  | .dict fields => (storedFields fields []).map .dict
  | .object _ => Option.none

/-- The items of a list or tuple, see `Val.stored`. -/
def storedList : List Val → Option (List Val)
  | [] => some []
  | v :: vs =>
    match v.stored, storedList vs with
    | some w, some ws => some (w :: ws)
    | _, _ => Option.none

/-- The fields of a dictionary, read one after the other into the dictionary `acc`, see `Val.stored`. -/
def storedFields : List (Key × Val) → List (Key × Val) → Option (List (Key × Val))
  | [], acc => some acc
  | (k, v) :: rest, acc =>
    match v.stored with
    | some w => storedFields rest (Dict.set acc (.str k.text) w)
    | Option.none => Option.none

end

/-- `dict.update`. -/
def update (d : Meta) : Meta → Meta
  | [] => d
  | (k, v) :: rest => update (Dict.set d k v) rest

/-- A buffered middleware (`ekosis/middleware/buffered_middleware_base.py` 6-14): what its three coroutines do with their arguments.
`E` is the type of exceptions. `beforePush` returns a dictionary or `None` and may change the payload; the other two may change payload and metadata. -/
structure Hook (K D E : Type) where
  beforePush : K → D → Except E (Option Meta) × D
  beforeProcess : K → D → Meta → Nat → Except E Unit × D × Meta
  afterProcess : K → D → Meta → Bool → Except E Unit × D × Meta

/-- The calls of application code; a middleware is named by its position in the manager's list. -/
inductive Call (K D : Type) where
  | push (i : Nat) (key : K) (dto : D)
  | before (i : Nat) (key : K) (dto : D) (md : Meta) (retries : Nat)
  | handler (key : K) (dto : D)
  | after (i : Nat) (key : K) (dto : D) (md : Meta) (success : Bool)

variable {K D J E : Type}

/-- `collect_push_metadata`, bm 19-25. `i` is the position of the first hook of the list. An empty dictionary counts as false, but
updating with it would change nothing. Gives the result, the payload as the hooks left it, and the calls. -/
def collect (key : K) : List (Hook K D E) → Nat → D → Meta → Except E Meta × D × List (Call K D)
  | [], _, d, md => (.ok md, d, [])
  | h :: hs, i, d, md =>
    match h.beforePush key d with
    | (.error e, d') => (.error e, d', [.push i key d])
    | (.ok result, d') =>
      let md' := match result with
        | some r => update md r
        | none => md
      let (res, d'', calls) := collect key hs (i + 1) d' md'
      (res, d'', .push i key d :: calls)

/-- `run_before_process`, bm 27-29. -/
def runBefore (key : K) (retries : Nat) :
    List (Hook K D E) → Nat → D → Meta → Except E Unit × D × Meta × List (Call K D)
  | [], _, d, md => (.ok (), d, md, [])
  | h :: hs, i, d, md =>
    match h.beforeProcess key d md retries with
    | (.error e, d', md') => (.error e, d', md', [.before i key d md retries])
    | (.ok (), d', md') =>
      let (res, d'', md'', calls) := runBefore key retries hs (i + 1) d' md'
      (res, d'', md'', .before i key d md retries :: calls)

/-- `run_after_process`, bm 31-33. -/
def runAfter (key : K) (success : Bool) :
    List (Hook K D E) → Nat → D → Meta → Except E Unit × D × Meta × List (Call K D)
  | [], _, d, md => (.ok (), d, md, [])
  | h :: hs, i, d, md =>
    match h.afterProcess key d md success with
    | (.error e, d', md') => (.error e, d', md', [.after i key d md success])
    | (.ok (), d', md') =>
      let (res, d'', md'', calls) := runAfter key success hs (i + 1) d' md'
      (res, d'', md'', .after i key d md success :: calls)

/-- The endpoint: `max_retries`, and what pydantic does with its payloads: `dump` is `model_dump_json` followed by `json.loads` (`none` if it
raises), `build` is `request_dto_type(**data)` (bh 183; `none` if it raises). -/
structure Cfg (D J : Type) where
  maxRetries : Int
  dump : D → Option J
  build : J → Option D

/-- A queued message, as read back from the queue (pq 11-22). -/
structure Entry (K J : Type) where
  key : K
  data : J
  retries : Nat
  md : Meta

/-- Where a message is. -/
inductive Place (K J : Type) where
  | pending (e : Entry K J)
  | failed (e : Entry K J)
  /-- processed -/
  | done
  /-- in no queue, not processed -/
  | lost
  /-- the sender was told that it was not accepted -/
  | refused

/-- `push_pending` and `push_error`, pq 107-126: the entry as it will be read back, `none` if writing it raises. -/
def entry (cfg : Cfg D J) (key : K) (dto : D) (retries : Nat) (md : Meta) : Option (Entry K J) :=
  match cfg.dump dto, storedFields md [] with
  | some j, some m => some ⟨key, j, retries, m⟩
  | _, _ => none

/-- `run`, bh 223-233, of an endpoint that is not paused, and the background task that pushes. -/
def receive (cfg : Cfg D J) (hooks : List (Hook K D E)) (key : K) (dto : D) : Place K J × List (Call K D) :=
  match collect key hooks 0 dto [] with
  | (.error _, _, calls) => (.refused, calls)
  | (.ok md, d, calls) =>
    match entry cfg key d 0 md with
    | some e => (.pending e, calls)
    | none => (.lost, calls)

/-- One turn of the loop in `__do_queue_processing`, bh 180-198. An exception ends the worker with the message in no queue. -/
def attempt (cfg : Cfg D J) (hooks : List (Hook K D E)) (handler : K → D → Except E Bool × D) (e : Entry K J) :
    Place K J × List (Call K D) :=
  match cfg.build e.data with
  | none => (.lost, [])
  | some d =>
    match runBefore e.key e.retries hooks 0 d e.md with
    | (.error _, _, _, calls) => (.lost, calls)
    | (.ok (), d1, md1, calls1) =>
      match handler e.key d1 with
      | (.error _, _) => (.lost, calls1 ++ [.handler e.key d1])
      | (.ok success, d2) =>
        match runAfter e.key success hooks 0 d2 md1 with
        | (.error _, _, _, calls2) => (.lost, calls1 ++ .handler e.key d1 :: calls2)
        | (.ok (), d3, md3, calls2) =>
          let calls := calls1 ++ .handler e.key d1 :: calls2
          if success then (.done, calls)
          else if (e.retries + 1 : Int) ≥ cfg.maxRetries then
            match entry cfg e.key d3 (e.retries + 1) md3 with
            | some e' => (.failed e', calls)
            | none => (.lost, calls)
          else
            match entry cfg e.key d3 (e.retries + 1) md3 with
            | some e' => (.pending e', calls)
            | none => (.lost, calls)

/-- What can happen to a message that was received: the worker takes it up, or an operator has it reprocessed. -/
inductive Event (K D E : Type) where
  | attempt (hooks : List (Hook K D E)) (handler : K → D → Except E Bool × D)
  | reprocess

/-- One event; events that do not apply change nothing. `reprocess` is `move_one_error_to_pending` or `move_all_error_to_pending`, pq 60-70:
the payload is written as it was read, the metadata is written again, no hook runs. -/
def step (cfg : Cfg D J) : Place K J → Event K D E → Place K J × List (Call K D)
  | .pending e, .attempt hooks handler => attempt cfg hooks handler e
  | .failed e, .reprocess =>
    match storedFields e.md [] with
    | some m => (.pending { e with retries := 0, md := m }, [])
    | none => (.lost, [])
  | p, _ => (p, [])

/-- A message's life from place `p`: where it ends up and the calls of every event. -/
def run (cfg : Cfg D J) : Place K J → List (Event K D E) → Place K J × List (List (Call K D))
  | p, [] => (p, [])
  | p, ev :: evs =>
    let (p', calls) := step cfg p ev
    let (q, rest) := run cfg p' evs
    (q, calls :: rest)

end Verif.Hooks
