/-!
# Model of the log shipper's batches

The loop of `ekosis_log_shipper/src/main.cpp` ("mn") over any number of log files, with `tracked_file.cpp` ("tf"), `state_store.cpp` and `http_sender.cpp` ("hs"), and
a collector that answers each request as it likes, depending on what it is sent. `Shipper` models one file system call by system call, with rotation; here one pass
of the loop is one step, and files only grow.

Simplifications: paths are numbers, in the order of their names; files consist of complete lines, and offsets count lines; the lines are JSON (another line ends the
process, C56); one pass of the loop is one step, during which nothing is written.
-/

namespace Verif.Batches

/-- A line, as a number: what the claims need of it is only that lines differ. -/
abbrev Line := Nat

/-- What came of a request: whether `curl_easy_perform` returned `CURLE_OK`, and the HTTP status. -/
structure Reply where
  curlOk : Bool
  code : Nat
  deriving DecidableEq, Repr

/-- `PostResult::success`, hs 57. -/
def Reply.success (r : Reply) : Bool := r.curlOk && decide (r.code ≥ 200) && decide (r.code < 300)

/-- `WatchedFile`, mn 42-45: the offset of the `TrackedFile`, and `undelivered`. -/
structure Watched where
  offset : Nat
  undelivered : List Line
  deriving DecidableEq, Repr

/-- A request: the path it was made for, its lines, the reply. -/
structure Sent where
  path : Nat
  lines : List Line
  reply : Reply
  deriving DecidableEq, Repr

/-- The machine: paths of the directory with a log file, their lines, `watched`, the state store, and all requests so far. -/
structure St where
  paths : List Nat
  disk : Nat → List Line
  watched : List (Nat × Watched)
  store : Nat → Option Nat
  sent : List Sent

/-- An empty directory, and no state. -/
def init : St := ⟨[], fun _ => [], [], fun _ => none, []⟩

/-- The place of a new key in a `std::map`. -/
def insert (p : Nat) (v : Watched) : List (Nat × Watched) → List (Nat × Watched)
  | [] => [(p, v)]
  | (q, u) :: t => if p < q then (p, v) :: (q, u) :: t else (q, u) :: insert p v t

/-- `attach`, mn 66-77, with the constructors of tf 9-25 (the inode is the same: no rotation). -/
def attach (store : Nat → Option Nat) (watched : List (Nat × Watched)) (p : Nat) : List (Nat × Watched) :=
  if watched.any (fun x => x.1 == p) then watched
  else insert p ⟨(store p).getD 0, []⟩ watched

/-- `poll`, tf 78-98: everything that has not been read. -/
def poll (disk : List Line) (v : Watched) : Watched := ⟨disk.length, disk.drop v.offset⟩

/-- One file, mn 103-122; `R` is the collector. -/
def ship (R : Nat → List Line → Reply) (disk : Nat → List Line) (p : Nat) (v : Watched) : Watched × Option Sent :=
  let v1 := if v.undelivered.isEmpty then poll (disk p) v else v
  if v1.undelivered.isEmpty then (v1, none)
  else
    let r := R p v1.undelivered
    if r.success then (⟨v1.offset, []⟩, some ⟨p, v1.undelivered, r⟩)
    else (v1, some ⟨p, v1.undelivered, r⟩)

/-- `state_store.save`, mn 116: after a success, the offset. -/
def save (store : Nat → Option Nat) (p : Nat) (v : Watched) : Option Sent → Nat → Option Nat
  | some s => if s.reply.success then fun q => if q = p then some v.offset else store q else store
  | none => store

/-- The loop over `watched`, mn 102-123. -/
def shipAll (R : Nat → List Line → Reply) (disk : Nat → List Line) : List (Nat × Watched) → (Nat → Option Nat) → List (Nat × Watched) × (Nat → Option Nat) × List Sent
  | [], store => ([], store, [])
  | (p, v) :: t, store =>
    let r := ship R disk p v
    let rest := shipAll R disk t (save store p r.1 r.2)
    ((p, r.1) :: rest.1, rest.2.1, r.2.toList ++ rest.2.2)

/-- One pass of the loop, mn 96-123. -/
def pass (R : Nat → List Line → Reply) (s : St) : St :=
  let w := s.paths.foldl (attach s.store) s.watched
  let r := shipAll R s.disk w s.store
  { s with watched := r.1, store := r.2.1, sent := s.sent ++ r.2.2 }

/-- Events: lines are appended to the file of a path (which is made if there is none), the shipper makes a pass (with the collector as it is then), it is restarted. -/
inductive Ev where
  | write (p : Nat) (ls : List Line)
  | pass (R : Nat → List Line → Reply)
  | restart

/-- One event. -/
def step (s : St) : Ev → St
  | .write p ls => { s with
      paths := if s.paths.contains p then s.paths else s.paths ++ [p]
      disk := fun q => if q = p then s.disk p ++ ls else s.disk q }
  | .pass R => pass R s
  | .restart => { s with watched := [] }

/-- A sequence of events. -/
def run (s : St) (es : List Ev) : St := es.foldl step s

end Verif.Batches
