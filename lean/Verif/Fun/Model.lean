import Verif.Span.Model
import Verif.Py.Text
import Mathlib.Data.List.Sort

/-!
# Model of the example applications

`examples/fun_factory`: the tracker's database (tracker/database.py, "db", and tracker/endpoints.py), the router's endpoint
(router/endpoints.py, "re") and the lottery (lottery/endpoints.py, "lo"). The same files of `examples/proper_fun` and
`examples/observable_fun` differ in white space, in where the name of the database file comes from, and in a third endpoint that always
answers `False`. `examples/dice_roller/handlers`: the dice.
-/

namespace Verif.Fun

open Verif.Py Verif.Span

/-! ### The tracker -/

/-- A row of the table, db 16-23. `T` are the time stamps. The columns for messages and times may be empty. -/
structure Row (T : Type) where
  id : Nat
  key : List Byte
  request : Option Str
  requestTime : Option T
  response : Option Str
  responseTime : Option T
  deriving DecidableEq

/-- The table, with its rows in the order in which they were inserted. -/
abbrev Table (T : Type) := List (Row T)

variable {T : Type}

/-- `get_existing_record`, db 43-44. -/
def existing (t : Table T) (key : List Byte) : Option (Row T) := t.find? fun r => r.key = key

/-- `__get_max_record_id`, db 93-96. -/
def maxId (t : Table T) : Nat := if t.length < 1 then 0 else t.foldl (fun m r => max m r.id) 0

/-- The `INSERT` at `commit`: the primary key (db 18) and the column `span_key` (db 19) are unique. -/
def insert (t : Table T) (r : Row T) : Except PyErr (Table T) :=
  if t.any fun r' => r'.id = r.id || r'.key = r.key then .error .integrityError else .ok (t ++ [r])

/-- The `UPDATE` at `commit`: of the row with the record's primary key. -/
def update (t : Table T) (id : Nat) (f : Row T → Row T) : Table T := t.map fun r => if r.id = id then f r else r

/-- `log_request`, db 47-65. `span_key.bytes` may raise. -/
def logRequest (t : Table T) (k : SpanKey) (message : Str) (time : T) : Except PyErr (Table T) :=
  match k.bytes with
  | .error e => .error e
  | .ok b => match existing t b with
    | some r => .ok (update t r.id fun r => { r with request := some message, requestTime := some time })
    | none => insert t { id := maxId t + 1, key := b, request := some message, requestTime := some time, response := none, responseTime := none }

/-- `log_response`, db 68-86. -/
def logResponse (t : Table T) (k : SpanKey) (message : Str) (time : T) : Except PyErr (Table T) :=
  match k.bytes with
  | .error e => .error e
  | .ok b => match existing t b with
    | some r => .ok (update t r.id fun r => { r with response := some message, responseTime := some time })
    | none => insert t { id := maxId t + 1, key := b, request := none, requestTime := none, response := some message, responseTime := some time }

/-- What the two buffered endpoints are given, tracker/endpoints.py 13-24. -/
inductive Op (T : Type) where
  | request (k : SpanKey) (message : Str) (time : T)
  | response (k : SpanKey) (message : Str) (time : T)
  deriving DecidableEq

/-- One call of an endpoint: `True`, or the exception raised. The table stays as it is after an exception. -/
def step (t : Table T) : Op T → Except PyErr Bool × Table T
  | .request k m time => match logRequest t k m time with
    | .ok t' => (.ok true, t')
    | .error e => (.error e, t)
  | .response k m time => match logResponse t k m time with
    | .ok t' => (.ok true, t')
    | .error e => (.error e, t)

/-- Calls one after the other: what they return, and the table. -/
def run (t : Table T) : List (Op T) → List (Except PyErr Bool) × Table T
  | [] => ([], t)
  | op :: ops => let (r, t') := step t op
    let (rs, t'') := run t' ops
    (r :: rs, t'')

/-! ### The router -/

/-- What Python makes of texts with characters beyond ASCII is left open: `lower`, `isdigit` and `int`. -/
structure Beyond where
  lower : Str → Str
  isDigit : Str → Bool
  int : Str → Except PyErr Int

/-- Whether a text is ASCII. -/
def ascii (s : Str) : Bool := s.all fun c => c.toNat < 128

/-- `s.lower()` -/
def lower (u : Beyond) (s : Str) : Str := if ascii s then Str.lower s else u.lower s

/-- `is_number`, re 34-35. -/
def isNumber (u : Beyond) (s : Str) : Bool :=
  let t := s.dropWhile (· = '-')
  if ascii t then t ≠ [] && t.all Char.isDigit else u.isDigit t

/-- `int(s)`: more than 4300 digits raise `ValueError`. -/
def int (u : Beyond) (s : Str) : Except PyErr Int :=
  if ascii s then
    if 4300 < (s.filter Char.isDigit).length then .error .valueError else Str.toInt s
  else u.int s

/-- The services behind the router: what their senders return or raise. -/
structure Services (E : Type) where
  fortune : Except E Str
  joke : Except E Str
  numbers : Int → Except E (List Str)
  time : Except E Str
  prediction : Str → Except E Str

/-- What the router does: requests to services, and the messages that are left for the tracker (`run_soon`, re 70-78). -/
inductive Event where
  | fortune
  | joke
  | numbers (howMany : Int)
  | time
  | prediction (question : Str)
  | logRequest (data : Str)
  | logResponse (data : Str)
  deriving DecidableEq

/-- How a call of the endpoint ends. -/
inductive Outcome (E : Type) where
  | answer (s : Str)
  | raised (e : PyErr)
  | service (e : E)
  deriving DecidableEq

variable {E : Type}

/-- `list_to_string`, re 27-31. -/
def listToString (l : List Str) : Str := l.foldl (fun r s => r ++ (s ++ ['\n'])) []

/-- `_get_lotto` up to the request, re 49-53. -/
def howMany (u : Beyond) (words : List Str) : Except PyErr Int :=
  match words with
  | _ :: w :: _ => if isNumber u w then int u w else .ok 1
  | _ => .ok 1

/-- The branches of `process_message`, re 88-97: the request to a service, and how it ends. -/
def ask (u : Beyond) (svc : Services E) (request : Str) : List Event × Outcome E :=
  let words := Str.split ' ' request
  let word := lower u (Str.strip (words.headD []))
  let plain (ev : Event) (r : Except E Str) : List Event × Outcome E := match r with
    | .ok s => ([ev], .answer s)
    | .error e => ([ev], .service e)
  if word = "fortune".toList then plain .fortune svc.fortune
  else if word = "joke".toList then plain .joke svc.joke
  else if word = "lotto".toList then
    match howMany u words with
    | .error e => ([], .raised e)
    | .ok n => plain (.numbers n) ((svc.numbers n).map listToString)
  else if word = "time".toList then plain .time svc.time
  else plain (.prediction request) (svc.prediction request)

/-- `process_message`, re 82-101. Everything it does carries the span key of the request, re 39-78, 84-100 (see C80). -/
def process (u : Beyond) (svc : Services E) (request : Str) : List Event × Outcome E :=
  match ask u svc request with
  | (evs, .answer s) => (.logRequest request :: evs ++ [.logResponse s], .answer s)
  | (evs, o) => (.logRequest request :: evs, o)

/-! ### The lottery and the dice -/

/-- `random.choice(l)` where `r` stands for chance: any element, `IndexError` if there is none. -/
def choice (l : List Nat) (r : Nat) : Except PyErr Nat :=
  match l[r % l.length]? with
  | some x => .ok x
  | none => .error .indexError

/-- The loop of `pick_number_set`, lo 22-25: `n` more choices from `numbers`. -/
def draw (chance : Nat → Nat) : Nat → List Nat → Except PyErr (List Nat)
  | 0, _ => .ok []
  | n + 1, numbers => match choice numbers (chance n) with
    | .error e => .error e
    | .ok c => match draw chance n (numbers.erase c) with
      | .error e => .error e
      | .ok cs => .ok (c :: cs)

/-- `str(i).rjust(2, ' ')`, lo 35, 37. -/
def rjust2 (n : Nat) : Str :=
  let s := Str.ofNat n
  List.replicate (2 - s.length) ' ' ++ s

/-- The loop of lo 30-35. -/
def joined : List Nat → Bool → Str → Str
  | [], _, line => line
  | i :: is, first, line => joined is false ((if first then line else line ++ ", ".toList) ++ rjust2 i)

/-- `pick_number_set`, lo 16-39. `choices[6]` exists whenever the loop ran seven times. -/
def pickSet (chance : Nat → Nat) : Except PyErr Str :=
  match draw chance 7 (List.range' 1 51) with
  | .error e => .error e
  | .ok choices =>
    let selection := (choices.take 6).insertionSort (· ≤ ·)
    match choices[6]? with
    | none => .error .indexError
    | some b => .ok (joined selection true [] ++ (" [".toList ++ rjust2 b ++ "]".toList))

/-- `pick_numbers`, lo 43-47. -/
def pickNumbers (chance : Nat → Nat → Nat) (howMany : Int) : Except PyErr (List Str) :=
  (List.range howMany.toNat).mapM fun j => pickSet (chance j)

/-- `list(range(1, sides))`, roll.py 15, roll_times.py 14. -/
def faces (sides : Int) : List Nat := List.range' 1 (sides - 1).toNat

/-- `dice_roller_roll`, roll.py 13-16. -/
def roll (r : Nat) (sides : Int) : Except PyErr Nat := choice (faces sides) r

/-- The total of `dice_roller_roll_times`, roll_times.py 17-20. -/
def total (chance : Nat → Nat) (sides : Int) : Nat → Except PyErr Nat
  | 0 => .ok 0
  | n + 1 => match choice (faces sides) (chance n) with
    | .error e => .error e
    | .ok c => match total chance sides n with
      | .error e => .error e
      | .ok s => .ok (c + 1 + s)

/-- `dice_roller_roll_times`, roll_times.py 12-30: `total < (sides * how_many) * 0.6` fails.
Simplification: the comparison is made with the exact product (`5 * total < 3 * sides * how_many`), not with the float nearest to it; the
two agree while the product is below 2^49, where the float is nearer than a fifth to the exact product and equal to it where that is whole. -/
def rollTimes (chance : Nat → Nat) (sides howMany : Int) : Except PyErr Bool :=
  match total chance sides howMany.toNat with
  | .error e => .error e
  | .ok s => .ok (!decide (5 * (s : Int) < 3 * (sides * howMany)))

end Verif.Fun
