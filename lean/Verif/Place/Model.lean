import Verif.Config.Names
import Verif.Life.Lemmas

/-!
# Where the databases of an application are (ekosis/application_base.py 186-204, ekosis/queues/pending_queue.py 29-36)

The configuration of `Verif.Config` and the life of an application of `Verif.Life`, joined: the directory of the configuration is put into
the names of the files of all buffered endpoints and senders, and opening those files decides whether the application starts.

Simplifications: a database can be opened just if the directory its name begins with exists (SQLite makes a missing file, but no missing
directory); rights, full disks and broken files are left out. SQLAlchemy gets the name in `sqlite:///...`
(paginated_queue.py 125) and would take a part behind a question mark for something else; names have none here.
-/

namespace Verif.Place

open Verif.Py Verif.Config

/-- The text of a value in an f-string; pending_queue.py 35-36. -/
def shown : Config.Val → Str
  | .none => "None".toList
  | .text s => s
  | .int i => (toString i).toList

/-- A buffered endpoint or sender of the application. -/
structure Buffered where
  route : Str
  kind : BufferKind
  deriving DecidableEq, Repr

/-- The two files of a component: buffered_handler_base.py 129-134, buffered_sender_base.py 180-185, pending_queue.py 35-36. -/
def fileOf (dir : Config.Val) (self : Self) (b : Buffered) (q : QueueKind) : Str := bufferFile (shown dir) self b.route b.kind q

/-- `sqlite3.OperationalError: unable to open database file`. -/
def unableToOpen : Life.Exc := .other 14

/-- `PaginatedQueue(file_path, ...)`, paginated_queue.py 118-134: `create_all` opens the file. `isDir`: does this directory exist, seen from
the directory the application runs in? -/
def openFile (isDir : Str → Bool) (path : Str) : Except Life.Exc Str :=
  if isDir (dirname path) then .ok path else .error unableToOpen

/-- `PendingQueue(directory, file_basename, page_size)`, pending_queue.py 29-36: first the pending entries, then the failed ones. The result
are the files in use. -/
def openPair (isDir : Str → Bool) (dir : Config.Val) (self : Self) (b : Buffered) : Except Life.Exc (Str × Str) :=
  match openFile isDir (fileOf dir self b .pending) with
  | .error e => .error e
  | .ok p =>
    match openFile isDir (fileOf dir self b .error) with
    | .error e => .error e
    | .ok e => .ok (p, e)

/-- What opening the queue of the `i`th component does: `__setup_buffered_handlers`, `__setup_buffered_senders`, application_base.py 186-204,
with `self._configuration.buffer_directory`. -/
def opens (isDir : Str → Bool) (dir : Config.Val) (self : Self) (bs : List Buffered) (i : Nat) : Except Life.Exc (Str × Str) :=
  match bs[i]? with
  | none => .error (.other 0)
  | some b => openPair isDir dir self b

end Verif.Place
