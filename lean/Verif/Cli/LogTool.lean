import Verif.Cli.Model
import Verif.Logs.Model

/-!
# The logging tool and the endpoints it calls

ekosis/cli/log.py with cli/senders/log.py; on the server standard_endpoints/log_manager.py and the levels of
data_transfer_objects/log_management.py. The logger itself is that of `Verif.Logs`. Not modelled: what is printed, and the transport.
-/

namespace Verif.Cli

open Verif.Py Verif.Logs

/-- What is typed: `-l` and `-b`, log.py 9-28. -/
structure LogTyped where
  serverType : String
  details : Str
  level : Option String := none
  buffer : Option Str := none

/-- The requests of the tool: `LogLevelRequestDto` to `eco.log.level` and `LogBufferRequestDto` to `eco.log.buffer`. -/
inductive LogRequest where
  | level (name : String)
  | buffer (size : Int)
  deriving DecidableEq, Repr

/-- `choices` of `-l`, log.py 13. -/
def levelChoices : List String := ["debug", "info", "warn", "error", "critical"]

/-- The option `-b`: `type = int`; `exit(2)` (here `none`) if that raises. -/
def bufferOption : Option Str → Option (Option Int)
  | none => some none
  | some x =>
    match Str.toInt x with
    | .ok n => some (some n)
    | .error _ => none

/-- log.py 30-41: the client and the requests sent over it, one after the other. -/
def logTool (t : LogTyped) : Run (Client × List LogRequest) :=
  if t.serverType ∉ ["tcp", "udp", "uds"] then .exit 2
  else if t.level.any (· ∉ levelChoices) then .exit 2
  else match bufferOption t.buffer with
    | none => .exit 2
    | some buffer =>
      match getClient t.serverType t.details with
      | .error e => .raised e
      | .ok c =>
        let first := match t.level with
          | some l => [.level l]
          | none => []
        let second := match buffer with
          | some n => [.buffer n]
          | none => []
        .sent (c, first ++ second)

/-- The answers: `LogLevelResponseDto`, `LogBufferResponseDto`, or a refusal because the level is no `LevelEnum` (log_management.py 4-13). -/
inductive LogAnswer where
  | level (name : String)
  | size (n : Int)
  | invalid
  deriving DecidableEq, Repr

/-- `eco_log_level` and `eco_log_buffer`, log_manager.py 17-29, called with span key `key`. The third component is what is written to the log file. -/
def serveLog (e : Enc) (key : Option Key) (s : State) : LogRequest → LogAnswer × State × List Line
  | .level name =>
    if name ∈ ["debug", "info", "warn", "error", "critical"] then (.level name, setLevel s name, [])
    else (.invalid, s, [])
  | .buffer n =>
    let (s1, w1) := setBufferSize e key s n
    let (s2, w2) := logCall e key s1 { levelno := 20, message := some ("eco_log_buffer " ++ toString n) }
    (.size n, s2, w1 ++ w2)

/-- The requests one after the other. -/
def serveLogs (e : Enc) (key : Option Key) : State → List LogRequest → List LogAnswer × State × List Line
  | s, [] => ([], s, [])
  | s, r :: rs =>
    let (a, s1, w1) := serveLog e key s r
    let (as, s2, w2) := serveLogs e key s1 rs
    (a :: as, s2, w1 ++ w2)

end Verif.Cli
