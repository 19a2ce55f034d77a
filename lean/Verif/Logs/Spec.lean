import Verif.Logs.Model

/-!
# What the log should contain

Independent of buffers, handlers and files: only the history of calls.
-/

namespace Verif.Logs.Spec

open Verif.Logs

/-- The five levels of the documentation and the numbers Python gives them. -/
def levelNumber : List (String × Nat) :=
  [("debug", 10), ("info", 20), ("warn", 30), ("error", 40), ("critical", 50)]

/-- What OpenTelemetry calls the levels. -/
def severity : List (Nat × Nat × String) :=
  [(10, 5, "DEBUG"), (20, 9, "INFO"), (30, 13, "WARN"), (40, 17, "ERROR"), (50, 21, "FATAL")]

def severityOf (n : Nat) : Nat × String := (severity.lookup n).getD (0, "UNSPECIFIED")

/-- The level in force after an event. -/
def levelAfter (level : Nat) : Event → Nat
  | .setLevel _ name => (levelNumber.lookup name).getD level
  | _ => level

/-- The buffer size in force after an event. -/
def sizeAfter (size : Int) : Event → Int
  | .setBufferSize _ n => n
  | _ => size

/-- The record an event logs, whatever the level, with the span key of the context it was logged in. -/
def logged : Event → List (Option Key × Record)
  | .log key r => [(key, r)]
  | .setBufferSize key n => [(key, { levelno := 20, message := some ("Setting log buffer size to " ++ toString n ++ ".") })]
  | _ => []

/-- The records at or above the level in force when they were logged. -/
def accepted (level : Nat) : List Event → List (Option Key × Record)
  | [] => []
  | ev :: evs => (logged ev).filter (fun p => decide (level ≤ p.2.levelno)) ++ accepted (levelAfter level ev) evs

/-- What a reader sees of a line, the span key left out. -/
def content (l : Line) : Nat × String × String := (l.severityNumber, l.severityText, l.body)

/-- The content a record should have, if it can be formatted at all. -/
def contentOf (r : Record) : Option (Nat × String × String) :=
  r.message.map fun body => ((severityOf r.levelno).1, (severityOf r.levelno).2, body)

/-- The line a record should give, with the key of the context it was logged in. -/
def lineOf (p : Option Key × Record) : Option Line :=
  p.2.message.map fun body =>
    { severityNumber := (severityOf p.2.levelno).1, severityText := (severityOf p.2.levelno).2, body := body,
      traceId := p.1.map (·.traceId), spanId := p.1.map (·.spanId) }

/-- The key of the context of an event. -/
def keyOf : Event → Option Key
  | .log k _ | .setLevel k _ | .setBufferSize k _ | .flush k | .shutdown k => k

/-- Does the line carry this key? -/
def carries (k : Option Key) (l : Line) : Prop := l.traceId = k.map (·.traceId) ∧ l.spanId = k.map (·.spanId)

/-- `l` are the rotated files, youngest first: `base.1` is the youngest ("the lower the appended number, the younger the rotated file",
documentation/configuration/through_environment_variables.md 79-80). -/
def Backups (old : Nat → Option File) (l : List File) : Prop := ∀ i, old (i + 1) = l[i]?

end Verif.Logs.Spec
