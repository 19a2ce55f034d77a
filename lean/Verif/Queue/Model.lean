import Mathlib.Data.List.Sort
import Verif.Py.Basic
import Verif.Queue.Spec

/-!
# Model of `ekosis/queues/paginated_queue.py`

`K` stands for span keys, `V` for queued objects, `S` for the JSON text they are stored as.

Simplifications made throughout this file:
* span keys are stored in the table as their 24 bytes (`entry.span_key.bytes`,
  `SpanKey.from_bytes`); the model stores the key itself. The byte form is a bijection
  (see `Verif.Span`).
* `page_size` is a natural number (Python allows negative integers).
* an SQL statement is atomic, and every method commits before it returns, so the table in the
  model is always the committed one. Commit points inside methods are made explicit by
  `openStates` and `shutDownStates`.
-/

namespace Verif.Queue

open Verif.Py Verif.Queue.Spec

/-- JSON codec of queued objects: `object_to_queue.model_dump_json()` (paginated_queue.py 44) and
`queued_type(**json.loads(s))` (paginated_queue.py 47-49, 295-296). `dec` is `none` when decoding
raises. -/
structure Codec (V S : Type) where
  enc : V → S
  dec : S → Option V

/-- The assumption the queue properties make about the codec: a stored object reads back as itself.
paginated_queue.py 44 and 47-49; property C60 is about when JSON satisfies it. -/
def Codec.Lawful {V S : Type} (c : Codec V S) : Prop := ∀ v, c.dec (c.enc v) = some v

/-- `PageEntry`, paginated_queue.py 25-27. -/
structure Entry (K S : Type) where
  key : K
  str : S
  deriving DecidableEq, Repr

/-- `QueueRecord`, paginated_queue.py 18-22. -/
structure Rec (K S : Type) where
  id : Int
  key : K
  str : S
  deriving DecidableEq, Repr

/-- `QueuePage`, paginated_queue.py 30-34: a list and a dict of the same entries. -/
structure Page (K S : Type) where
  list : List (Entry K S)
  dict : Dict K (Entry K S)
  deriving DecidableEq, Repr

variable {K V S : Type} [DecidableEq K]

/-- Result of decoding a stored entry, an exception when the text does not decode.
paginated_queue.py 47-49. -/
def decode (c : Codec V S) (s : S) : Except PyErr (Option V) :=
  match c.dec s with
  | none => .error .decodeError
  | some v => .ok (some v)

namespace Page

/-- `QueuePage(queued_type)`, paginated_queue.py 31-34. -/
def empty : Page K S := ⟨[], []⟩

/-- `QueuePage.__append_entry`, paginated_queue.py 36-38. -/
def append (p : Page K S) (e : Entry K S) : Page K S :=
  ⟨p.list ++ [e], p.dict.set e.key e⟩

/-- `QueuePage.push_back` / `push`, paginated_queue.py 51-52, 65-68 with `__make_entry` 41-45. -/
def push (c : Codec V S) (p : Page K S) (v : V) (k : K) : Page K S :=
  p.append ⟨k, c.enc v⟩

/-- `QueuePage.push_with_str`, paginated_queue.py 54-60. -/
def pushStr (p : Page K S) (s : S) (k : K) : Page K S := p.append ⟨k, s⟩

/-- `QueuePage.size`, paginated_queue.py 77-78. -/
def size (p : Page K S) : Nat := p.list.length

/-- `QueuePage.pop_front` / `pop`, paginated_queue.py 62-63, 70-75. -/
def popFront (c : Codec V S) (p : Page K S) : Except PyErr (Option V) × Page K S :=
  match p.list with
  | [] => (.ok none, p)
  | e :: rest =>
    match p.dict.pop e.key with
    | (.error err, d) => (.error err, ⟨rest, d⟩)
    | (.ok _, d) => (decode c e.str, ⟨rest, d⟩)

/-- `QueuePage.has_entry`, paginated_queue.py 83-84. -/
def hasEntry (p : Page K S) (k : K) : Bool := p.dict.has k

/-- `QueuePage.inspect_entry`, paginated_queue.py 86-90. -/
def inspect (c : Codec V S) (p : Page K S) (k : K) : Except PyErr (Option V) :=
  match p.dict.get? k with
  | none => .ok none
  | some e => decode c e.str

/-- The loop of `pop_entry`, paginated_queue.py 97-100: the last index holding the key, `none` for
the initial `-1`. `i` is the index of the head of the list. -/
def lastIndex (k : K) : List (Entry K S) → Nat → Option Nat → Option Nat
  | [], _, acc => acc
  | e :: rest, i, acc => lastIndex k rest (i + 1) (if k = e.key then some i else acc)

/-- `list.pop(index)` with `none` for index `-1`; raises `IndexError` on an empty list. -/
def listPop (l : List (Entry K S)) : Option Nat → Except PyErr (List (Entry K S))
  | some i => if i < l.length then .ok (l.eraseIdx i) else .error .indexError
  | none => match l with
    | [] => .error .indexError
    | _ => .ok l.dropLast

/-- `QueuePage.pop_entry`, paginated_queue.py 92-102. -/
def popEntry (c : Codec V S) (p : Page K S) (k : K) : Except PyErr (Option V) × Page K S :=
  match p.dict.get? k with
  | none => (.ok none, p)
  | some e =>
    match listPop p.list (lastIndex e.key p.list 0 none) with
    | .error err => (.error err, ⟨p.list, p.dict.erase k⟩)
    | .ok l => (decode c e.str, ⟨l, p.dict.erase k⟩)

/-- `QueuePage.get_first_x_span_keys`, paginated_queue.py 104-114. `how_many` is a Python integer:
`range` of a negative number is empty. The `str` of each key is not applied here. -/
def firstKeys (p : Page K S) (howMany : Int) : List K :=
  if p.size > 0 then
    if (p.size : Int) < howMany then p.list.map Entry.key
    else (p.list.take howMany.toNat).map Entry.key
  else []

end Page

/-- The table `queued_objects`: rows in any order. -/
abbrev Table (K S : Type) := List (Rec K S)

namespace Table

/-- `ORDER BY record_id ASC`, paginated_queue.py 168-171. -/
def asc (t : Table K S) : List (Rec K S) := t.insertionSort (fun a b => a.id ≤ b.id)

/-- `ORDER BY record_id DESC`, paginated_queue.py 180-183. -/
def desc (t : Table K S) : List (Rec K S) := t.insertionSort (fun a b => b.id ≤ a.id)

/-- `__get_max_record_id`, paginated_queue.py 147-150. -/
def maxId (t : Table K S) : Int :=
  match t with
  | [] => 0
  | r :: rest => rest.foldl (fun m x => max m x.id) r.id

/-- `__get_min_record_id`, paginated_queue.py 153-156. -/
def minId (t : Table K S) : Int :=
  match t with
  | [] => 0
  | r :: rest => rest.foldl (fun m x => min m x.id) r.id

/-- `__delete_record_ids`, paginated_queue.py 159-164. -/
def deleteIds (t : Table K S) (ids : List Int) : Table K S := t.filter (fun r => r.id ∉ ids)

/-- `session.bulk_save_objects(rows); session.commit()`, paginated_queue.py 202-203, 218-219: the
primary key and the `UNIQUE` span key make the insert fail as a whole. -/
def insertAll (t : Table K S) (rows : List (Rec K S)) : Except PyErr (Table K S) :=
  if ((t ++ rows).map Rec.id).Nodup ∧ ((t ++ rows).map Rec.key).Nodup then .ok (t ++ rows)
  else .error .integrityError

/-- `__check_record_exists`, paginated_queue.py 238-241. -/
def hasKey (t : Table K S) (k : K) : Bool := t.any (fun r => r.key = k)

/-- `__get_record_by_span_key`, paginated_queue.py 227-235. `one()` also raises when two rows match;
the `UNIQUE` constraint excludes that, so the first match is taken. -/
def find? (t : Table K S) (k : K) : Option (Rec K S) := List.find? (fun r => r.key = k) t

end Table

/-- `PaginatedQueue`, paginated_queue.py 117-135. `back = none` means that `back_page` and
`front_page` are the same object. -/
structure PQ (K S : Type) where
  pageSize : Nat
  front : Page K S
  back : Option (Page K S)
  db : Table K S
  deriving DecidableEq, Repr

namespace PQ

/-- `self.back_page`. -/
def backPage (q : PQ K S) : Page K S :=
  match q.back with
  | none => q.front
  | some b => b

/-- Assigning to the fields of the object `self.back_page` refers to. -/
def setBackPage (q : PQ K S) (b : Page K S) : PQ K S :=
  match q.back with
  | none => { q with front := b }
  | some _ => { q with back := some b }

/-- Pushing the loaded records on a page, paginated_queue.py 173-174, 185-186. -/
def pushRecs (p : Page K S) (rs : List (Rec K S)) : Page K S :=
  rs.foldl (fun p r => p.pushStr r.str r.key) p

/-- `__load_front_page`, paginated_queue.py 167-176. -/
def loadFront (q : PQ K S) : PQ K S :=
  let rs := (Table.asc q.db).take q.pageSize
  { q with front := pushRecs q.front rs, db := Table.deleteIds q.db (rs.map Rec.id) }

/-- `__load_back_page`, paginated_queue.py 179-188. -/
def loadBack (q : PQ K S) : PQ K S :=
  let rs := (Table.desc q.db).take q.pageSize
  { q.setBackPage (pushRecs q.backPage rs) with db := Table.deleteIds q.db (rs.map Rec.id) }

/-- Records written for a page list with record ids `start, start + step, ...`,
paginated_queue.py 193-201, 209-217. -/
def mkRecs (step : Int) : Int → List (Entry K S) → List (Rec K S)
  | _, [] => []
  | i, e :: rest => ⟨i, e.key, e.str⟩ :: mkRecs step (i + step) rest

/-- `__write_front_page`, paginated_queue.py 191-204. The front page is replaced by a new object; if
both pages were one object, `back_page` still refers to the old one. -/
def writeFront (q : PQ K S) : Except PyErr Unit × PQ K S :=
  let rows := mkRecs (-1) (Table.minId q.db - 1) q.front.list.reverse
  match Table.insertAll q.db rows with
  | .error e => (.error e, q)
  | .ok t => (.ok (), { q with db := t, front := Page.empty, back := some q.backPage })

/-- `__write_back_page`, paginated_queue.py 207-220. -/
def writeBack (q : PQ K S) : Except PyErr Unit × PQ K S :=
  let rows := mkRecs 1 (Table.maxId q.db + 1) q.backPage.list
  match Table.insertAll q.db rows with
  | .error e => (.error e, q)
  | .ok t => (.ok (), { q with db := t, back := some Page.empty })

/-- `PaginatedQueue.__init__` on an existing table before `__do_initial_load`,
paginated_queue.py 118-134. -/
def fresh (pageSize : Nat) (t : Table K S) : PQ K S := ⟨pageSize, Page.empty, none, t⟩

/-- First half of `__do_initial_load`, paginated_queue.py 139-140. -/
def initFront (q : PQ K S) : PQ K S :=
  if q.db.length > 0 then q.loadFront else q

/-- Second half of `__do_initial_load`, paginated_queue.py 142-144. -/
def initBack (q : PQ K S) : PQ K S :=
  if q.db.length > 0 then ({ q with back := some Page.empty }).loadBack else q

/-- `PaginatedQueue(file_path, queued_type, page_size)`, paginated_queue.py 118-144. -/
def «open» (pageSize : Nat) (t : Table K S) : PQ K S := (fresh pageSize t).initFront.initBack

/-- The committed tables an `open` passes through (each load deletes and commits,
paginated_queue.py 159-164). -/
def openStates (pageSize : Nat) (t : Table K S) : List (Table K S) :=
  [t, (fresh pageSize t).initFront.db, («open» pageSize t).db]

/-- `PaginatedQueue.pop`, paginated_queue.py 244-255. -/
def pop (c : Codec V S) (q : PQ K S) : Except PyErr (Option V) × PQ K S :=
  if q.front.size > 0 then
    let r := q.front.popFront c
    (r.1, { q with front := r.2 })
  else if q.db.length > 0 then
    let q' := q.loadFront
    let r := q'.front.popFront c
    (r.1, { q' with front := r.2 })
  else if q.backPage.size > 0 then
    let q' : PQ K S := { q with front := q.backPage, back := none }
    let r := q'.front.popFront c
    (r.1, { q' with front := r.2 })
  else
    (.ok none, { q with front := q.backPage, back := none })

/-- `PaginatedQueue.push`, paginated_queue.py 258-271. Returns the span key. -/
def push (c : Codec V S) (q : PQ K S) (v : V) (k : K) : Except PyErr K × PQ K S :=
  if q.backPage.hasEntry k || q.front.hasEntry k || Table.hasKey q.db k then (.ok k, q)
  else if q.backPage.size < q.pageSize then
    (.ok k, q.setBackPage (q.backPage.push c v k))
  else match q.back with
    | none => (.ok k, { q with back := some ((Page.empty : Page K S).push c v k) })
    | some _ =>
      match q.writeBack with
      | (.error e, q') => (.error e, q')
      | (.ok _, q') => (.ok k, q'.setBackPage (q'.backPage.push c v k))

/-- `PaginatedQueue.size`, paginated_queue.py 274-282. -/
def size (q : PQ K S) : Nat :=
  match q.back with
  | none => q.db.length + q.front.size
  | some b => q.db.length + (q.front.size + b.size)

/-- `PaginatedQueue.is_empty`, paginated_queue.py 315-316. -/
def isEmpty (q : PQ K S) : Bool := q.size = 0

/-- `PaginatedQueue.inspect_span_key`, paginated_queue.py 285-296. -/
def inspect (c : Codec V S) (q : PQ K S) (k : K) : Except PyErr (Option V) :=
  if q.front.hasEntry k then q.front.inspect c k
  else if q.backPage.hasEntry k then q.backPage.inspect c k
  else match Table.find? q.db k with
    | none => .ok none
    | some r => decode c r.str

/-- `PaginatedQueue.pop_span_key`, paginated_queue.py 299-312. The JSON text is parsed before the row
is deleted and the object built after; both failures are one `decode` in the model, placed after
the deletion. `session.delete(record)` deletes by primary key. -/
def popKey (c : Codec V S) (q : PQ K S) (k : K) : Except PyErr (Option V) × PQ K S :=
  if q.front.hasEntry k then
    let r := q.front.popEntry c k
    (r.1, { q with front := r.2 })
  else if q.backPage.hasEntry k then
    let r := q.backPage.popEntry c k
    (r.1, q.setBackPage r.2)
  else match Table.find? q.db k with
    | none => (.ok none, q)
    | some r => (decode c r.str, { q with db := Table.deleteIds q.db [r.id] })

/-- `PaginatedQueue.get_first_x_span_keys`, paginated_queue.py 323-324. -/
def firstKeys (q : PQ K S) (howMany : Int) : List K := q.front.firstKeys howMany

/-- `PaginatedQueue.clear`, paginated_queue.py 327-335. -/
def clear (q : PQ K S) : PQ K S :=
  let t := q.db.filter (fun r => ¬ r.id > 0)
  let t := t.filter (fun r => ¬ r.id < 0)
  let t := t.filter (fun r => ¬ r.id = 0)
  { q with db := t, front := Page.empty, back := none }

/-- `PaginatedQueue.shut_down`, paginated_queue.py 338-348. An exception in the first write skips the
second. -/
def shutDown (q : PQ K S) : Except PyErr Unit × PQ K S :=
  match q.back with
  | none => if q.front.size > 0 then q.writeFront else (.ok (), q)
  | some _ =>
    let r := if q.front.size > 0 then q.writeFront else (.ok (), q)
    match r with
    | (.error e, q') => (.error e, q')
    | (.ok _, q') => if q'.backPage.size > 0 then q'.writeBack else (.ok (), q')

/-- The committed tables `shut_down` passes through. -/
def shutDownStates (q : PQ K S) : List (Table K S) :=
  [q.db, (if q.front.size > 0 then q.writeFront.2 else q).db, q.shutDown.2.db]

end PQ

/-- One public call. -/
def step (c : Codec V S) (q : PQ K S) : Op K V → Out K V × PQ K S
  | .push v k => let r := q.push c v k; (.key r.1, r.2)
  | .pop => let r := q.pop c; (.val r.1, r.2)
  | .inspect k => (.val (q.inspect c k), q)
  | .popKey k => let r := q.popKey c k; (.val r.1, r.2)
  | .firstKeys n => (.keys (q.firstKeys n), q)
  | .size => (.num q.size, q)
  | .clear => (.unit, q.clear)

/-- A history of public calls. -/
def run (c : Codec V S) (q : PQ K S) : List (Op K V) → List (Out K V) × PQ K S
  | [] => ([], q)
  | op :: ops =>
    let r := step c q op
    let rs := run c r.2 ops
    (r.1 :: rs.1, rs.2)

/-- Committed tables passed by one public call: every call commits at most once. -/
def stepStates (c : Codec V S) (q : PQ K S) (op : Op K V) : List (Table K S) :=
  [q.db, (step c q op).2.db]

end Verif.Queue
