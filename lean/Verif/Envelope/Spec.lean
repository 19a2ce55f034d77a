import Verif.Envelope.Model

/-!
# What a collector understands

A reader of OTLP logs in JSON, written from the OpenTelemetry protocol and independent of the shipper: `resourceLogs`, in each the attributes
of the resource and `scopeLogs`, in each `logRecords`.
-/

namespace Verif.Envelope.Spec

open Verif.Py Verif.Span

/-- An attribute's value. -/
inductive Value where
  | text (s : String)
  | num (i : Int)
  | flag (b : Bool)
  deriving DecidableEq, Repr

/-- A log record, as received. -/
structure Record where
  time : String
  severityNumber : Int
  severityText : String
  body : String
  attributes : List (String × Value)
  traceId : Option String
  spanId : Option String
  deriving DecidableEq, Repr

/-- All records received for one resource. -/
structure Group where
  resource : List (String × Value)
  records : List Record
  deriving DecidableEq, Repr

/-- A member of an object. -/
def member (j : Json) (key : String) : Option Json :=
  match j with
  | .obj fields => (fields.find? (fun x => x.1 = key)).map Prod.snd
  | _ => none

def text (j : Json) : Option String := match j with | .str s => some s | _ => none

def whole (j : Json) : Option Int := match j with | .int i => some i | _ => none

def list (j : Json) : Option (List Json) := match j with | .arr l => some l | _ => none

/-- `AnyValue`. -/
def value (j : Json) : Option Value :=
  match member j "stringValue", member j "intValue", member j "boolValue" with
  | some (.str s), none, none => some (.text s)
  | none, some (.int i), none => some (.num i)
  | none, none, some (.bool b) => some (.flag b)
  | _, _, _ => none

/-- `KeyValue`. -/
def keyValue (j : Json) : Option (String × Value) := do
  let k ← (← member j "key") |> text
  let v ← (← member j "value") |> value
  return (k, v)

/-- `LogRecord`. -/
def record (j : Json) : Option Record := do
  let time ← (← member j "timeUnixNano") |> text
  let num ← (← member j "severityNumber") |> whole
  let txt ← (← member j "severityText") |> text
  let body ← match ← value (← member j "body") with | .text s => some s | _ => none
  let attrs ← (← (← member j "attributes") |> list).mapM keyValue
  return { time := time, severityNumber := num, severityText := txt, body := body, attributes := attrs,
           traceId := (member j "traceId").bind text, spanId := (member j "spanId").bind text }

/-- `ResourceLogs`. -/
def group (j : Json) : Option Group := do
  let attrs ← (← (← member (← member j "resource") "attributes") |> list).mapM keyValue
  let scopes ← (← member j "scopeLogs") |> list
  let recs ← scopes.mapM (fun s => do (← (← member s "logRecords") |> list).mapM record)
  return { resource := attrs, records := recs.flatten }

/-- The whole payload. -/
def groups (j : Json) : Option (List Group) := do
  (← (← member j "resourceLogs") |> list).mapM group

/-! ## What a line must be -/

/-- A text, null or nothing at all. -/
def optionalText (j : Json) (key : String) : Bool :=
  match member j key with
  | none => true
  | some .null => true
  | some (.str _) => true
  | some _ => false

/-- `OtlpLogRecord` (otlp_log_record.py 19-27), apart from its attributes: what the JSON of a line must have. -/
def isRecord (j : Json) : Bool :=
  ((member j "timestamp").bind text).isSome && ((member j "severity_number").bind whole).isSome &&
    ((member j "severity_text").bind text).isSome && ((member j "body").bind text).isSome &&
    optionalText j "trace_id" && optionalText j "span_id"

/-! ## What ought to be received -/

/-- OpenTelemetry's severity for Python's five levels; other levels have none. -/
def severity (levelno : Nat) : Int × String :=
  match levelno with
  | 10 => (5, "DEBUG")
  | 20 => (9, "INFO")
  | 30 => (13, "WARN")
  | 40 => (17, "ERROR")
  | 50 => (21, "FATAL")
  | _ => (0, "UNSPECIFIED")

/-- A trace id: 32 hexadecimal digits. -/
def traceHex (k : SpanKey) : String := String.ofList (hexPad 32 k.trace)

/-- A span id: 16 hexadecimal digits. -/
def spanHex (k : SpanKey) : String := String.ofList (hexPad 16 k.span.value.natAbs)

/-- The record of a log call. Attributes are in no particular order; here they are in that of their names. -/
def expected (app : App) (c : Call) : Record :=
  { time := toString (c.created * 1000),
    severityNumber := (severity c.levelno).1,
    severityText := (severity c.levelno).2,
    body := c.message,
    attributes := [("application_instance", .text app.inst), ("application_name", .text app.name), ("filename", .text c.filename),
      ("funcName", .text c.funcName), ("lineno", .num c.lineno), ("module", .text c.modul)],
    traceId := c.key.map traceHex,
    spanId := c.key.map spanHex }

/-- The resource of an application. -/
def resourceOf (app : App) : List (String × Value) := [("service.name", .text app.name), ("service.instance.id", .text app.inst)]

end Verif.Envelope.Spec
