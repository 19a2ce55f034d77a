/-!
# The log shipper (ekosis_log_shipper/src)

One watched log file, the program that writes and rotates it, and the shipper, one system call at a time in any interleaving. Every path
has its own `TrackedFile` and its own batch (main.cpp 42-45, 102-122), so paths only affect each other by ending the process, which is the
event `crash` here. Simplifications: bytes are characters; `read_available_lines` reads until end of file, which is one step because
whatever is appended meanwhile is as if appended before the last `read`; a batch is sent as its lines (see `Envelope` for the payload);
SQLite's `save` is atomic; `open`, `fstat`, `lseek` and `read` fail only if the path does not exist.
-/

namespace Verif.Shipper

abbrev Str := List Char

/-! ## Names -/

/-- `has_log_suffix`, main.cpp 19-23. -/
def hasLogSuffix (name : Str) : Bool :=
  decide (name.length ≥ 4) && (name.drop (name.length - 4) == ".log".toList)

/-! ## The file system -/

/-- A file that is or was at the path: inode number and content. -/
structure File where
  inode : Nat
  content : Str
  deriving DecidableEq, Repr

/-- All files that were ever at the path, oldest first. The last one is at the path now, unless it has been renamed and no new file was
created yet (`linked = false`). A file stays readable through an open descriptor, whatever its name (tracked_file.hpp 8-16). -/
structure World where
  files : List File
  linked : Bool
  deriving DecidableEq, Repr

/-- `stat(path)`: the inode number, if the path exists. -/
def World.stat (w : World) : Option Nat := if w.linked then w.files.getLast?.map (·.inode) else none

/-! ## TrackedFile -/

/-- The descriptor `fd` is the index of the open file in `World.files`; `pos` is the position of the descriptor in that file, `offset`
and `pending` are the fields of that name (tracked_file.hpp 41-46). -/
structure Tracked where
  fd : Nat
  inode : Nat
  pos : Nat
  offset : Nat
  pending : Str
  deriving DecidableEq, Repr

/-- `open_at_path`, tracked_file.cpp 35-55; `none` stands for the exception. -/
def openAtPath (w : World) (off : Nat) : Option Tracked :=
  if w.linked then
    w.files.getLast?.map fun f => { fd := w.files.length - 1, inode := f.inode, pos := off, offset := off, pending := [] }
  else none

/-- The loop of tracked_file.cpp 65-73 on the text from `start`: the complete lines, and what is left. -/
def splitLines : Str → List Str × Str
  | [] => ([], [])
  | c :: cs =>
    if c = '\n' then
      let (ls, rest) := splitLines cs
      ([] :: ls, rest)
    else
      match splitLines cs with
      | ([], rest) => ([], c :: rest)
      | (l :: ls, rest) => ((c :: l) :: ls, rest)

/-- `read_available_lines`, tracked_file.cpp 58-77: the lines are returned instead of appended to the argument. -/
def readAvailable (w : World) (t : Tracked) : Tracked × List Str :=
  let fresh := (((w.files[t.fd]?).map (·.content)).getD []).drop t.pos
  let all := t.pending ++ fresh
  let (ls, rest) := splitLines all
  let start := all.length - rest.length
  ({ t with pos := t.pos + fresh.length, offset := t.offset + start, pending := rest }, ls)

/-! ## The process -/

/-- Where the process is in its loop for this file. -/
inductive Pc where
  /-- main.cpp 103, and `stat` in `poll`, tracked_file.cpp 83-86 -/
  | top
  /-- tracked_file.cpp 91 -/
  | drain
  /-- tracked_file.cpp 92-94, with the lines read so far -/
  | reopen (lines : List Str)
  /-- tracked_file.cpp 97-98, with the lines read so far -/
  | read (lines : List Str)
  /-- main.cpp 110-113: `undelivered` is not empty -/
  | post
  /-- main.cpp 115-116: the collector has answered with success -/
  | save
  deriving DecidableEq, Repr

inductive Proc where
  /-- not running, or running without having attached to the path -/
  | down
  /-- in the constructor of `TrackedFile`, between `stat` and `open` (tracked_file.cpp 20-24), with the offset chosen -/
  | opening (off : Nat)
  | running (t : Tracked) (undelivered : List Str) (pc : Pc)
  deriving DecidableEq, Repr

structure State where
  world : World
  proc : Proc
  /-- the row of `tracked_files` for the path (state_store.cpp) -/
  saved : Option (Nat × Nat)
  /-- all lines the collector has taken, in order -/
  received : List Str
  deriving DecidableEq, Repr

/-- What becomes of a `POST` (http_sender.cpp 28-58). -/
inductive Outcome where
  /-- taken, and answered with 2xx -/
  | ok
  /-- not taken -/
  | failed
  /-- taken, but the answer does not come within ten seconds or is lost -/
  | unanswered
  deriving DecidableEq, Repr

/-- The next action of the shipper. `parses` says which lines `json::parse` and `convert_one_record` accept; otherwise they throw, nothing
catches the exception, and the process ends (main.cpp 110-111). -/
def exec (parses : Str → Bool) (s : State) (o : Outcome) : State :=
  match s.proc with
  | .down =>
    -- `attach`, main.cpp 66-77: only files found in the directory; then the constructors, tracked_file.cpp 9-25
    match s.world.stat with
    | none => s
    | some inode =>
      match s.saved with
      | none => { s with proc := .opening 0 }
      | some (resumeInode, resumeOffset) =>
        if inode = resumeInode then { s with proc := .opening resumeOffset } else { s with proc := .opening 0 }
  | .opening off =>
    match openAtPath s.world off with
    | none => { s with proc := .down }
    | some t => { s with proc := .running t [] .top }
  | .running t und .top =>
    if und = [] then
      match s.world.stat with
      | none => { s with proc := .running t und (.read []) }
      | some inode =>
        if inode ≠ t.inode then { s with proc := .running t und .drain } else { s with proc := .running t und (.read []) }
    else { s with proc := .running t und .post }
  | .running t und .drain =>
    let (t, ls) := readAvailable s.world t
    { s with proc := .running t und (.reopen ls) }
  | .running _ und (.reopen ls) =>
    match openAtPath s.world 0 with
    | none => { s with proc := .down }
    | some t => { s with proc := .running t und (.read ls) }
  | .running t _ (.read ls) =>
    let (t, ls') := readAvailable s.world t
    let und := ls ++ ls'
    if und = [] then { s with proc := .running t [] .top } else { s with proc := .running t und .post }
  | .running t und .post =>
    if und.all parses then
      match o with
      | .ok => { s with proc := .running t und .save, received := s.received ++ und }
      | .failed => { s with proc := .running t und .top }
      | .unanswered => { s with proc := .running t und .top, received := s.received ++ und }
    else { s with proc := .down }
  | .running t _ .save => { s with proc := .running t [] .top, saved := some (t.inode, t.offset) }

/-! ## The writer and the schedule -/

inductive Event where
  /-- the writer appends to the file at the path -/
  | append (bytes : Str)
  /-- `RotatingFileHandler.doRollover` renames the file (handlers.py 176-179) -/
  | moveAway
  /-- ... and opens a new one at the path (handlers.py 180-181) -/
  | create (inode : Nat)
  /-- the shipper performs its next action -/
  | exec (o : Outcome)
  /-- the shipper is killed -/
  | crash
  deriving DecidableEq, Repr

/-- Append to the last file. -/
def appendLast : List File → Str → List File
  | [], _ => []
  | [f], bs => [{ f with content := f.content ++ bs }]
  | f :: g :: fs, bs => f :: appendLast (g :: fs) bs

/-- An inode number is not used again while a descriptor of the file is open. -/
def mayUse (s : State) (inode : Nat) : Bool :=
  match s.proc with
  | .running t _ _ => decide (inode ≠ t.inode)
  | _ => true

def step (parses : Str → Bool) (s : State) : Event → State
  | .append bs => if s.world.linked then { s with world := { s.world with files := appendLast s.world.files bs } } else s
  | .moveAway => { s with world := { s.world with linked := false } }
  | .create inode =>
    if s.world.linked = false && mayUse s inode then
      { s with world := { files := s.world.files ++ [{ inode := inode, content := [] }], linked := true } }
    else s
  | .exec o => exec parses s o
  | .crash => { s with proc := .down }

def run (parses : Str → Bool) (s : State) (evs : List Event) : State := evs.foldl (step parses) s

/-- Before anything was logged or shipped. -/
def init : State := { world := { files := [], linked := false }, proc := .down, saved := none, received := [] }

end Verif.Shipper
