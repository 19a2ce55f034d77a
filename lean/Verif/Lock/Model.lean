import Verif.Py.Text

/-!
# The lock file (ekosis/application_base.py 132-156)

Any number of processes of one application instance, each going through `__lock_file_check` one system call at a time, in any
interleaving, on one machine with one lock file. Processes of other programs come and go as well. A process may end at any moment
(exit, exception or kill); nothing ever removes the lock file when it does (`__exit__` and `__do_shutdown`, 106-128, do not).
Simplifications: the lock directory exists and is writable for all; texts are ASCII.
-/

namespace Verif.Lock

open Verif.Py

abbrev Pid := Nat

/-- The exceptions that can end a start. -/
inductive LockErr where
  /-- `InstanceAlreadyRunningException` -/
  | alreadyRunning (pid : Int)
  /-- `FileNotFoundError` from `open` or `os.remove` -/
  | fileNotFound
  /-- `ValueError` from `int()` -/
  | valueError
  deriving DecidableEq, Repr

/-- Where a process is: the next thing it does. -/
inductive Pc where
  /-- `os.path.exists(lock_file_path)`, line 150 -/
  | check
  /-- `open(...)`, `readline()`, `int(...)`, lines 151-152 -/
  | read
  /-- `os.kill(process_id, 0)`, lines 132-137 and 153 -/
  | probe (pid : Int)
  /-- `os.remove(lock_file_path)`, line 155 -/
  | remove
  /-- `open(lock_file_path, "w")`, line 143: creates or empties the file -/
  | create
  /-- the text written when the file is closed, line 144 -/
  | write
  /-- past `__lock_file_check` -/
  | running
  | failed (e : LockErr)
  deriving DecidableEq, Repr

/-- One machine. `permitted p n`: process `p` may signal process `n`. -/
structure State where
  /-- the text of the lock file, if it exists -/
  lock : Option Str
  /-- the live processes of this application instance -/
  procs : Pid → Option Pc
  /-- the live processes of other programs -/
  foreign : Pid → Bool
  permitted : Pid → Int → Bool

/-- Is there a process with this id? -/
def alive (s : State) (p : Pid) : Bool := (s.procs p).isSome || s.foreign p

/-- `f"{process_id}\n"`, line 144. -/
def pidLine (p : Pid) : Str := Str.ofNat p ++ ['\n']

/-- `readline()`: up to and including the first line feed. -/
def readline : Str → Str
  | [] => []
  | c :: cs => if c = '\n' then ['\n'] else c :: readline cs

def setPc (s : State) (p : Pid) (pc : Option Pc) : State :=
  { s with procs := fun q => if q = p then pc else s.procs q }

/-- `__process_id_check`, lines 132-137: `os.kill` fails with an `OSError` if there is no such process or it may not be
signalled. Ids are positive numbers. -/
def processIdCheck (s : State) (self : Pid) (n : Int) : Bool :=
  match n with
  | .ofNat m => alive s m && s.permitted self n
  | .negSucc _ => false

/-- The next action of a process. -/
def exec (s : State) (p : Pid) : State :=
  match s.procs p with
  | some .check => if s.lock.isSome then setPc s p (some .read) else setPc s p (some .create)
  | some .read => match s.lock with
    | none => setPc s p (some (.failed .fileNotFound))
    | some text => match Str.toInt (readline text) with
      | .error _ => setPc s p (some (.failed .valueError))
      | .ok n => setPc s p (some (.probe n))
  | some (.probe n) =>
    if processIdCheck s p n then setPc s p (some (.failed (.alreadyRunning n))) else setPc s p (some .remove)
  | some .remove => match s.lock with
    | none => setPc s p (some (.failed .fileNotFound))
    | some _ => setPc { s with lock := none } p (some .create)
  | some .create => setPc { s with lock := some [] } p (some .write)
  | some .write => setPc { s with lock := some (pidLine p) } p (some .running)
  | _ => s

inductive Event where
  /-- a process of this application instance is started under a free process id -/
  | spawn (p : Pid)
  | exec (p : Pid)
  /-- a process ends, at whatever point it is -/
  | exit (p : Pid)
  /-- a process of another program starts or ends -/
  | foreignStart (p : Pid)
  | foreignExit (p : Pid)
  deriving DecidableEq, Repr

/-- One step. The system never gives a live process's id to another. -/
def step (s : State) : Event → State
  | .spawn p => if alive s p then s else setPc s p (some .check)
  | .exec p => exec s p
  | .exit p => setPc s p none
  | .foreignStart p => if alive s p then s else { s with foreign := fun q => q = p || s.foreign q }
  | .foreignExit p => { s with foreign := fun q => q ≠ p && s.foreign q }

def run (s : State) : List Event → State
  | [] => s
  | e :: es => run (step s e) es

/-- Nothing runs; the lock file may be there with any text. -/
def init (lock : Option Str) (foreign : Pid → Bool) (permitted : Pid → Int → Bool) : State :=
  { lock, procs := fun _ => none, foreign, permitted }

end Verif.Lock
