import Verif.Stats.Flatten
import Verif.Address.Model
import Mathlib.Data.String.Basic

/-!
# The telemetry example

examples/telemetry/telemetry_example.py: how it finds the application, and what it makes of the statistics it is answered.

Not modelled: the sending of the request for statistics (see `Client`), and what the InfluxDB library does with the data points.
-/

namespace Verif.Telemetry

open Verif.Py Verif.Stats

/-- `s.replace(p, '')` for a text `p` that is not empty: all occurrences, from the left. The number counts the characters of an
occurrence that are still to be left out. -/
def removeFrom (p : Str) : Nat → Str → Str
  | _, [] => []
  | k + 1, _ :: cs => removeFrom p k cs
  | 0, c :: cs => if p.isPrefixOf (c :: cs) then removeFrom p (p.length - 1) cs else c :: removeFrom p 0 cs

/-- `key.replace(p, '')` -/
def remove (p key : String) : String := String.ofList (removeFrom p.toList 0 key.toList)

/-- `s.startswith(p)` -/
def startsWith (s p : String) : Bool := p.toList.isPrefixOf s.toList

/-- `s.endswith(p)` -/
def endsWith (s p : String) : Bool := p.toList.isSuffixOf s.toList

/-- A data point. Its name is always "ecosystem_statistics" (telemetry_example.py 150). -/
structure Point where
  tags : Dict String Stat
  fields : Dict String Stat
  time : String

/-- The values that all data points share: `MACHINE_HOSTNAME`, `APPLICATION_NAME`, `APPLICATION_INSTANCE`, `time_to_log`. -/
structure Common where
  host : String
  name : Stat
  inst : Stat
  time : String

/-- `make_base_data_point`, telemetry_example.py 149-154. -/
def basePoint (b : Common) : Point :=
  { tags := Dict.set (Dict.set (Dict.set [] "eco_host_name" (.text b.host)) "eco_app_name" b.name) "eco_app_instance" b.inst
    fields := []
    time := "" }

/-- `data_point.tag(k, v)` -/
def Point.tag (p : Point) (k v : String) : Point := { p with tags := Dict.set p.tags k (.text v) }

/-- `data_point.field(k, v)` -/
def Point.field (p : Point) (k : String) (v : Stat) : Point := { p with fields := Dict.set p.fields k v }

/-- `data_point.time(t)` -/
def Point.at (p : Point) (t : String) : Point := { p with time := t }

/-- The body of the loop of `log_endpoint_data`, telemetry_example.py 181-197. -/
def endpointPoint (b : Common) (key : String) (value : Stat) : Point :=
  let p := basePoint b
  let p := if endsWith key "call_count" then (p.tag "endpoint_data" (remove ".call_count" key)).field "call_count" value else p
  let p := if endsWith key "p95" then (p.tag "endpoint_data" (remove ".p95" key)).field "p95" value else p
  let p := if endsWith key "p99" then (p.tag "endpoint_data" (remove ".p99" key)).field "p99" value else p
  p.at b.time

/-- The loop of `log_endpoint_data`, telemetry_example.py 180-199. -/
def endpointLoop (b : Common) (data : Dict String Stat) : List String → Except PyErr (List Point)
  | [] => .ok []
  | key :: rest => match Dict.get? data key with
    | none => .error .keyError
    | some value => match endpointLoop b data rest with
      | .ok ps => .ok (endpointPoint b key value :: ps)
      | .error e => .error e

/-- `log_endpoint_data`, telemetry_example.py 171-199. -/
def logEndpoints (b : Common) (data : Dict String Stat) : Except PyErr (List Point) :=
  endpointLoop b data (((Dict.keys data).filter fun x => !startsWith x "eco.").insertionSort (· ≤ ·))

/-- The body of the loops of `log_buffered_endpoint_sizes` and `log_buffered_sender_sizes`, telemetry_example.py 210-220 and
233-243, which differ in the name of the tag. -/
def sizePoint (b : Common) (tag key : String) (value : Stat) : Point :=
  let p := basePoint b
  let p := if endsWith key "pending" then (p.tag tag (remove ".pending" key)).field "pending" value
    else (p.tag tag (remove ".error" key)).field "error" value
  p.at b.time

/-- `log_buffered_endpoint_sizes` and `log_buffered_sender_sizes`, telemetry_example.py 204-222 and 227-245. -/
def logSizes (b : Common) (tag : String) (data : Dict String Stat) : List Point := data.map fun x => sizePoint b tag x.1 x.2

/-- `d[key]` for a value from the statistics: only dictionaries can be asked with a text. -/
def subscript (s : Stat) (key : String) : Except PyErr Stat :=
  match s with
  | .node d => match Dict.get? d key with
    | some v => .ok v
    | none => .error .keyError
  | _ => .error .typeError

/-- `flatten_dictionary(s)` for a value from the statistics: only dictionaries have `items`. -/
def flattened (s : Stat) : Except PyErr (Dict String Stat) :=
  match s with
  | .node d => .ok (flatten d)
  | _ => .error .attributeError

/-- `get_statistics`, telemetry_example.py 133-143, given the answers to the two requests. -/
def getStatistics (gathered current : Store) : Store := if !Dict.has gathered "uptime" then current else gathered

/-- `datetime.datetime.fromtimestamp(timestamp).isoformat()`, telemetry_example.py 262; what it makes of a number is left open. -/
def timeToLog (iso : ℚ → Except PyErr String) : Stat → Except PyErr String
  | .num q => iso q
  | _ => .error .typeError

/-- The sizes of queues under a key, telemetry_example.py 266-267. -/
def sizesIn (statistics : Store) (key : String) : Except PyErr (Option (Dict String Stat)) :=
  match Dict.get? statistics key with
  | none => .ok none
  | some s => match flattened s with
    | .ok d => .ok (some d)
    | .error e => .error e

/-- `if sizes: data_points.extend(..)`, telemetry_example.py 272-280. -/
def extend (b : Common) (tag : String) : Option (Dict String Stat) → List Point
  | none => []
  | some d => if d = [] then [] else logSizes b tag d

/-- `main` after the statistics arrived, telemetry_example.py 256-282: the data points that are written. After an exception a message
is printed (284) and nothing is written. -/
def points (host : String) (iso : ℚ → Except PyErr String) (statistics : Store) : Except PyErr (List Point) := do
  let app ← subscript (.node statistics) "application"
  let name ← subscript app "name"
  let app' ← subscript (.node statistics) "application"
  let inst ← subscript app' "instance"
  let timestamp ← subscript (.node statistics) "timestamp"
  let time ← timeToLog iso timestamp
  let ed ← subscript (.node statistics) "endpoint_data"
  let endpointData ← flattened ed
  let endpointSizes ← sizesIn statistics "buffered_endpoint_sizes"
  let senderSizes ← sizesIn statistics "buffered_sender_sizes"
  let b : Common := { host, name, inst, time }
  let ps ← logEndpoints b endpointData
  .ok (ps ++ extend b "buffered_endpoint" endpointSizes ++ extend b "buffered_sender" senderSizes)

/-- `main`, telemetry_example.py 250-284. -/
def written (host : String) (iso : ℚ → Except PyErr String) (gathered current : Store) : Except PyErr (List Point) :=
  points host iso (getStatistics gathered current)

/-- The client the statistics are asked for with. -/
inductive Target where
  | tcp (host : Str) (port : Nat)
  | udp (host : Str) (port : Nat)
  | uds (path : Str)
  deriving DecidableEq

/-- How `make_ecosystem_client` ends. -/
inductive Setup where
  /-- `MACHINE_HOSTNAME` and `ECO_SYSTEM_APP_CLIENT` -/
  | ready (machine : Option Str) (target : Target)
  /-- `print_error` and the end of the program -/
  | refused
  | raised (e : PyErr)
  deriving DecidableEq

/-- The common part of the first two branches of `make_ecosystem_client`, telemetry_example.py 80-82 and 84-86. -/
def overNetwork (u : Address.Beyond) (own : Str) (byName : Str → Str) (details : Str) (client : Str → Nat → Target) : Setup :=
  match Address.hostPort u details with
  | .raised e => .raised e
  | .refused => .refused
  | .address host port => match Address.machineHostname u own byName host with
    | .error e => .raised e
    | .ok machine => .ready machine (client host port)

/-- The values of `--server_type`, examples/telemetry/argument_parser.py 39-46. -/
inductive ServerType where
  | tcp
  | udp
  | uds
  deriving DecidableEq

/-- The text given for `--server_type`. -/
def ServerType.text : ServerType → Str
  | .tcp => "tcp".toList
  | .udp => "udp".toList
  | .uds => "uds".toList

/-- `make_ecosystem_client`, telemetry_example.py 77-91; `exists_` is `os.path.exists`. -/
def makeClient (u : Address.Beyond) (own : Str) (byName : Str → Str) (exists_ : Str → Bool) (type : ServerType) (details : Str) : Setup :=
  match type with
  | .tcp => overNetwork u own byName details .tcp
  | .udp => overNetwork u own byName details .udp
  | .uds => if !exists_ type.text then .refused else .ready (some own) (.uds details)

end Verif.Telemetry
