import Verif.Wire.Model
import Verif.Logs.Model

/-!
# Model of the log line and of the log shipper's payload

`OtlpFormatter.format` (ekosis/logs/otlp_formatter.py) writes a line; `extract_resource_info` and `build_otlp_logs_payload`
(ekosis_log_shipper/src/otlp_envelope.cpp) turn a batch of lines into the payload that is posted.

`model_dump_json` is `Wire.write`. `nlohmann::json::parse` is taken to read what `Wire.loads` reads, and its objects to be iterated in the
order of their keys (`std::map`). The payload is left as a JSON value; its text (`payload.dump()`, line 116) is not modelled. C++ exceptions
are `none`.
-/

namespace Verif.Envelope

open Verif.Py Verif.Span Verif.Wire

/-! ## Dates -/

/-- A date and time of day, with month and day counted from 1. -/
structure Tm where
  year : Nat
  month : Nat
  day : Nat
  hour : Nat
  minute : Nat
  second : Nat
  deriving DecidableEq, Repr

/-- Leap years of the Gregorian calendar. -/
def isLeap (y : Nat) : Bool := y % 4 = 0 && (y % 100 ≠ 0 || y % 400 = 0)

/-- The lengths of the months of a year. -/
def months (y : Nat) : List Nat := [31, if isLeap y then 29 else 28, 31, 30, 31, 30, 31, 31, 30, 31, 30, 31]

/-- The number of days of a year. -/
def yearLen (y : Nat) : Nat := if isLeap y then 366 else 365

/-- Count off whole years, beginning with `y`. The first argument bounds the number of years. -/
def findYear : Nat → Nat → Nat → Nat × Nat
  | 0, y, d => (y, d)
  | n + 1, y, d => if d < yearLen y then (y, d) else findYear n (y + 1) (d - yearLen y)

/-- Count off whole months, beginning with month `m`. -/
def findMonth : List Nat → Nat → Nat → Nat × Nat
  | [], m, d => (m, d)
  | l :: ls, m, d => if d < l then (m, d) else findMonth ls (m + 1) (d - l)

/-- `gmtime` for instants from 1970 on, which `datetime.fromtimestamp(t, tz=utc)` uses. -/
def gmtime (t : Nat) : Tm :=
  let days := t / 86400
  let rem := t % 86400
  let (y, yd) := findYear (days + 1) 1970 days
  let (m, md) := findMonth (months y) 1 yd
  { year := y, month := m, day := md + 1, hour := rem / 3600, minute := rem % 3600 / 60, second := rem % 60 }

/-- `n` with `w` decimal digits (`{n:0wd}`), for `n < 10 ^ w`. -/
def dec : Nat → Nat → Str
  | 0, _ => []
  | w + 1, n => dec w (n / 10) ++ [Nat.digitChar (n % 10)]

/-- `datetime.fromtimestamp(created, tz=utc).isoformat()` (otlp_formatter.py 16), for `created` in whole microseconds since 1970: the
fraction is left out when it is zero.
Simplification: `record.created` is a float, which `fromtimestamp` rounds to microseconds; the rounding is not modelled. -/
def isoformat (micros : Nat) : Str :=
  let t := gmtime (micros / 1000000)
  let us := micros % 1000000
  dec 4 t.year ++ '-' :: (dec 2 t.month ++ '-' :: (dec 2 t.day ++ 'T' :: (dec 2 t.hour ++ ':' :: (dec 2 t.minute ++ ':' :: (dec 2 t.second ++
    ((if us = 0 then [] else '.' :: dec 6 us) ++ "+00:00".toList))))))

/-! ## The formatter -/

/-- The call that is logged: what `logging.LogRecord` holds of it, and the span key of the current request. -/
structure Call where
  /-- `record.created`, in microseconds -/
  created : Nat
  levelno : Nat
  /-- `record.getMessage()` -/
  message : String
  filename : String
  lineno : Nat
  modul : String
  funcName : String
  key : Option SpanKey

/-- `AppConfiguration`: name and instance. -/
structure App where
  name : String
  inst : String

/-- `OtlpFormatter.format`, otlp_formatter.py 10-40, before it is turned into text. -/
def recordJson (app : App) (c : Call) : Json :=
  .obj [
    ("timestamp", .str (String.ofList (isoformat c.created))),
    ("severity_number", .int (Logs.severityForLevelno c.levelno).1),
    ("severity_text", .str (Logs.severityForLevelno c.levelno).2),
    ("body", .str c.message),
    ("attributes", .obj [
      ("application_name", .str app.name),
      ("application_instance", .str app.inst),
      ("filename", .str c.filename),
      ("lineno", .int c.lineno),
      ("module", .str c.modul),
      ("funcName", .str c.funcName)]),
    ("trace_id", match c.key with | some k => .str (String.ofList (hexPad 32 k.trace)) | none => .null),
    ("span_id", match c.key with | some k => .str (String.ofList k.span.hex) | none => .null)]

/-- The line, without its line feed: `log_record.model_dump_json()`, otlp_formatter.py 39. -/
def line (F : Floats) (app : App) (c : Call) : Str := write F (recordJson app c)

/-! ## The shipper -/

/-- A directive of a `scanf` format. -/
inductive Fmt where
  | int
  | lit (c : Char)

/-- The digits at the beginning of a text, as a number, and how many there are. -/
def scanDigits : Str → Nat → Nat → Nat × Nat × Str
  | [], acc, n => (acc, n, [])
  | c :: cs, acc, n => if c.isDigit then scanDigits cs (acc * 10 + (c.toNat - 48)) (n + 1) else (acc, n, c :: cs)

/-- `%d` of `sscanf`: blanks, a sign, digits.
Simplification: numbers that do not fit in an `int`, for which C defines nothing, are taken as they are. -/
def scanInt (s : Str) : Option (Int × Str) :=
  let s := s.dropWhile Str.isSpace
  let (neg, s) := match s with
    | '-' :: r => (true, r)
    | '+' :: r => (false, r)
    | r => (false, r)
  match scanDigits s 0 0 with
  | (_, 0, _) => none
  | (v, _, r) => some (if neg then -(v : Int) else v, r)

/-- `sscanf`: the numbers converted until the first mismatch. -/
def sscanf : List Fmt → Str → List Int
  | [], _ => []
  | .int :: fs, s => match scanInt s with
    | none => []
    | some (v, r) => v :: sscanf fs r
  | .lit c :: fs, s => match s with
    | d :: r => if d = c then sscanf fs r else []
    | [] => []

/-- Days before each month of an ordinary year. -/
def cumulative : List Int := [0, 31, 59, 90, 120, 151, 181, 212, 243, 273, 304, 334]

/-- `timegm`: seconds since 1970 of the date in a `struct tm` (year since 1900, month from 0), by the usual formula. Months outside
0..11 carry into the year. -/
def timegm (tmYear tmMon tmMday tmHour tmMin tmSec : Int) : Int :=
  let y := tmYear + 1900 + tmMon / 12
  let m := tmMon % 12
  let leap : Int := if y % 4 = 0 ∧ (y % 100 ≠ 0 ∨ y % 400 = 0) ∧ 2 ≤ m then 1 else 0
  let days := 365 * (y - 1970) + ((y - 1) / 4 - (y - 1) / 100 + (y - 1) / 400 - 477) + cumulative.getD m.toNat 0 + leap + (tmMday - 1)
  days * 86400 + tmHour * 3600 + tmMin * 60 + tmSec

/-- The format of otlp_envelope.cpp 17. -/
def timeFormat : List Fmt :=
  [.int, .lit '-', .int, .lit '-', .int, .lit 'T', .int, .lit ':', .int, .lit ':', .int, .lit '.', .int]

/-- `parse_iso8601_to_unix_nanos`, otlp_envelope.cpp 15-31: unconverted numbers stay 0, arithmetic is that of `uint64_t`. -/
def parseTime (timestamp : Str) : Nat :=
  let v := sscanf timeFormat timestamp
  let year := v.getD 0 0
  let month := v.getD 1 0
  let day := v.getD 2 0
  let hour := v.getD 3 0
  let minute := v.getD 4 0
  let second := v.getD 5 0
  let micros := v.getD 6 0
  let epoch := timegm (year - 1900) (month - 1) day hour minute second
  ((epoch * 1000000000 + micros * 1000) % 2 ^ 64).toNat

/-- `std::to_string`. -/
def toText (n : Nat) : String := String.ofList (Nat.toDigits 10 n)

/-- `attribute_kv`, otlp_envelope.cpp 33-46. `nlohmann::json` keeps whole numbers of up to 64 bits as such; `get<int64_t>` wraps; larger ones
are floats. -/
def attributeKv (F : Floats) (key : String) (value : Json) : Json :=
  let v : Json := match value with
    | .str s => .obj [("stringValue", .str s)]
    | .int i =>
      if -2 ^ 63 ≤ i ∧ i < 2 ^ 63 then .obj [("intValue", .int i)]
      else if 2 ^ 63 ≤ i ∧ i < 2 ^ 64 then .obj [("intValue", .int (i - 2 ^ 64))]
      else .obj [("stringValue", .str (String.ofList (write F value)))]
    | .bool b => .obj [("boolValue", .bool b)]
    | _ => .obj [("stringValue", .str (String.ofList (write F value)))]
  .obj [("key", .str key), ("value", v)]

/-- `record.at(key).get<std::string>()`. -/
def atStr (fields : List (String × Json)) (key : String) : Option String :=
  match Dict.get? fields key with
  | some (.str s) => some s
  | _ => none

/-- `record.at(key).get<int>()`. -/
def atInt (fields : List (String × Json)) (key : String) : Option Int :=
  match Dict.get? fields key with
  | some (.int i) => some i
  | _ => none

/-- Insert by key. -/
def insertField (x : String × Json) : List (String × Json) → List (String × Json)
  | [] => [x]
  | y :: ys => if x.1 < y.1 then x :: y :: ys else y :: insertField x ys

/-- The members of an object in the order of `items()`: `std::map` sorts by key. -/
def items (fields : List (String × Json)) : List (String × Json) := fields.foldr insertField []

/-- `record.at("attributes").items()` mapped with `attribute_kv`, otlp_envelope.cpp 55-60. Items of an array have their index as key; a value that is
neither object nor array is its own only item, under the empty key. -/
def attributesOf (F : Floats) (fields : List (String × Json)) : List Json :=
  match Dict.get? fields "attributes" with
  | none => []
  | some (.obj attrs) => (items attrs).map (fun x => attributeKv F x.1 x.2)
  | some (.arr vs) => (List.range vs.length).zipWith (fun i v => attributeKv F (toText i) v) vs
  | some .null => []
  | some v => [attributeKv F "" v]

/-- `if (record.contains(key) && !record.at(key).is_null()) log_record[name] = record.at(key).get<std::string>()`,
otlp_envelope.cpp 63-68. The outer `none` is an exception. -/
def optionalId (fields : List (String × Json)) (key name : String) : Option (List (String × Json)) :=
  match Dict.get? fields key with
  | none => some []
  | some .null => some []
  | some (.str s) => some [(name, .str s)]
  | some _ => none

/-- `convert_one_record`, otlp_envelope.cpp 48-70. -/
def convertRecord (F : Floats) : Json → Option Json
  | .obj fields =>
    match atStr fields "timestamp", atInt fields "severity_number", atStr fields "severity_text", atStr fields "body",
        optionalId fields "trace_id" "traceId", optionalId fields "span_id" "spanId" with
    | some ts, some num, some txt, some body, some tid, some sid =>
      some (.obj ([
        ("timeUnixNano", .str (toText (parseTime ts.toList))),
        ("severityNumber", .int num),
        ("severityText", .str txt),
        ("body", .obj [("stringValue", .str body)]),
        ("attributes", .arr (attributesOf F fields))] ++ tid ++ sid))
    | _, _, _, _, _, _ => none
  | _ => none

/-- `nlohmann::json::parse`. -/
def parse (F : Floats) (s : Str) : Option Json :=
  match loads F s with
  | .ok j => some j
  | .error _ => none

/-- `attrs.contains(key)` then `attrs.at(key).get<std::string>()`, empty if absent; otlp_envelope.cpp 81-86. -/
def atOr (attrs : List (String × Json)) (key : String) : Option String :=
  match Dict.get? attrs key with
  | none => some ""
  | some (.str s) => some s
  | some _ => none

/-- `extract_resource_info`, otlp_envelope.cpp 75-89. `contains` is false for anything but objects. -/
def extractResource (F : Floats) (s : Str) : Option App :=
  match parse F s with
  | none => none
  | some (.obj fields) =>
    match Dict.get? fields "attributes" with
    | some (.obj attrs) =>
      match atOr attrs "application_name", atOr attrs "application_instance" with
      | some n, some i => some ⟨n, i⟩
      | _, _ => none
    | _ => some ⟨"", ""⟩
  | some _ => some ⟨"", ""⟩

/-- The loop of otlp_envelope.cpp 93-96. -/
def convertAll (F : Floats) : List Str → Option (List Json)
  | [] => some []
  | s :: ss =>
    match parse F s with
    | none => none
    | some j => match convertRecord F j, convertAll F ss with
      | some r, some rs => some (r :: rs)
      | _, _ => none

/-- `build_otlp_logs_payload`, otlp_envelope.cpp 92-117. -/
def buildPayload (F : Floats) (lines : List Str) (resource : App) : Option Json :=
  match convertAll F lines with
  | none => none
  | some records =>
    some (.obj [("resourceLogs", .arr [.obj [
      ("resource", .obj [("attributes", .arr [
        attributeKv F "service.name" (.str resource.name),
        attributeKv F "service.instance.id" (.str resource.inst)])]),
      ("scopeLogs", .arr [.obj [("scope", .obj []), ("logRecords", .arr records)]])]])])

/-- What is posted for a batch: main.cpp 109-110. Batches are not empty (main.cpp 105-107). -/
def post (F : Floats) : List Str → Option Json
  | [] => none
  | s :: ss =>
    match extractResource F s with
    | none => none
    | some resource => buildPayload F (s :: ss) resource

end Verif.Envelope
