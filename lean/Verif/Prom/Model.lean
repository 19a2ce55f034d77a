import Verif.Stats.Model

/-!
# The Prometheus exporter

ekosis_prometheus/ekosis_prometheus/stats_translator.py. A generator is the list of what it yields together with the exception that
ended it, if any. Simplification: `float` of a text is a `ValueError` although Python converts texts like "1.5"; the statistics contain
texts only below `application`.
-/

namespace Verif.Prom

open Verif.Py Verif.Stats

/-- What is yielded: metric name, value and labels. `endpoint` are the labels `group` and `endpoint`, if present. -/
structure Metric where
  name : String
  value : ℚ
  service : Stat
  instance_ : Stat
  endpoint : Option (String × String)

/-- A generator. -/
abbrev Gen (α : Type) := List α × Option PyErr

/-- One generator after another. -/
def Gen.append {α : Type} (a b : Gen α) : Gen α :=
  match a with
  | (xs, none) => (xs ++ b.1, b.2)
  | (xs, some e) => (xs, some e)

/-- `for x in xs: ...`. -/
def each {α β : Type} (f : α → Gen β) : List α → Gen β
  | [] => ([], none)
  | x :: xs => (f x).append (each f xs)

/-- `float(value)`. -/
def toFloat : Stat → Except PyErr ℚ
  | .num q => .ok q
  | .text _ => .error .valueError
  | .node _ => .error .typeError

/-- `if value is not None: yield name, float(value), labels`. -/
def emit (mk : ℚ → Metric) : Option Stat → Gen Metric
  | none => ([], none)
  | some v => match toFloat v with
    | .ok q => ([mk q], none)
    | .error e => ([], some e)

/-- `if value is not None and value >= 0: yield name, float(value), labels`, stats_translator.py 95-101; comparing anything but a
number with 0 is a `TypeError`. -/
def emitNonneg (mk : ℚ → Metric) : Option Stat → Gen Metric
  | none => ([], none)
  | some (.num q) => if q ≥ 0 then ([mk q], none) else ([], none)
  | some _ => ([], some .typeError)

/-- `d.get(key, {})`. -/
def getDict (d : Store) (key : String) : Stat := (d.get? key).getD (.node [])

/-- The loop over the endpoints of a group. -/
def endpointsOf (body : String → Store → Gen Metric) (x : String × Stat) : Gen Metric :=
  match x.2 with
  | .node data => body x.1 data
  | _ => ([], none)

/-- The two nested loops of stats_translator.py 27-34 and 81-88: groups, then endpoints, skipping excluded groups and what is not a
dictionary. -/
def groups (exclude : List String) (body : String → String → Store → Gen Metric) (x : String × Stat) : Gen Metric :=
  if x.1 ∈ exclude then ([], none)
  else match x.2 with
    | .node endpoints => each (endpointsOf (body x.1)) endpoints
    | _ => ([], none)

/-- `.items()` of what should be a dictionary; anything else has no such attribute. -/
def items (f : String × Stat → Gen Metric) : Stat → Gen Metric
  | .node d => each f d
  | _ => ([], some .attributeError)

/-- The body of the endpoint loop, stats_translator.py 89-101. -/
def endpointMetrics (service inst : Stat) (group endpoint : String) (data : Store) : Gen Metric :=
  (emit (fun q => ⟨"ekosis_endpoint_call_count", q, service, inst, some (group, endpoint)⟩) (data.get? "call_count")).append
  ((emitNonneg (fun q => ⟨"ekosis_endpoint_p95_seconds", q, service, inst, some (group, endpoint)⟩) (data.get? "p95")).append
  (emitNonneg (fun q => ⟨"ekosis_endpoint_p99_seconds", q, service, inst, some (group, endpoint)⟩) (data.get? "p99")))

/-- The body of the queue loop, stats_translator.py 35-41. -/
def queueMetrics (metricPrefix : String) (service inst : Stat) (group endpoint : String) (sizes : Store) : Gen Metric :=
  (emit (fun q => ⟨metricPrefix ++ "_queue_pending", q, service, inst, some (group, endpoint)⟩) (sizes.get? "pending")).append
  (emit (fun q => ⟨metricPrefix ++ "_queue_error", q, service, inst, some (group, endpoint)⟩) (sizes.get? "error"))

/-- `key.replace(".", "_").replace("-", "_")`. -/
def safeKey (key : String) : String :=
  String.ofList (key.toList.map fun c => if c = '.' ∨ c = '-' then '_' else c)

mutual

/-- `_flatten`, stats_translator.py 11-17. -/
def flatten (pre : String) : Stat → List (String × ℚ)
  | .node d => flattenItems pre d
  | .num q => [(pre, q)]
  | .text _ => []

def flattenItems (pre : String) : List (String × Stat) → List (String × ℚ)
  | [] => []
  | (k, v) :: rest => flatten (if pre = "" then safeKey k else pre ++ "_" ++ safeKey k) v ++ flattenItems pre rest

end

/-- `known_keys`, stats_translator.py 120-128. -/
def knownKeys : List String :=
  ["application", "endpoint_data", "buffered_endpoint_sizes", "buffered_sender_sizes", "timestamp", "uptime", "gather_period"]

/-- The custom statistics, stats_translator.py 129-133. -/
def customMetrics (service inst : Stat) (x : String × Stat) : Gen Metric :=
  if x.1 ∈ knownKeys then ([], none)
  else ((flatten x.1 x.2).map fun y => ⟨"ekosis_custom_" ++ y.1, y.2, service, inst, none⟩, none)

/-- `_DEFAULT_EXCLUDE_GROUPS`, stats_translator.py 7. -/
def defaultExclude : List String := ["eco"]

/-- `translate_gathered_stats`, stats_translator.py 45-133. -/
def translate (stats : Store) (serviceName inst : String) (exclude : List String) : Gen Metric :=
  match getDict stats "application" with
  | .node app =>
    let service := (Dict.get? app "name").getD (.text serviceName)
    let inst := (Dict.get? app "instance").getD (.text inst)
    (emit (fun q => ⟨"ekosis_uptime_seconds", q, service, inst, none⟩) (stats.get? "uptime")).append
    ((emit (fun q => ⟨"ekosis_gather_period_seconds", q, service, inst, none⟩) (stats.get? "gather_period")).append
    ((items (groups exclude (endpointMetrics service inst)) (getDict stats "endpoint_data")).append
    ((items (groups exclude (queueMetrics "ekosis_buffered_endpoint" service inst)) (getDict stats "buffered_endpoint_sizes")).append
    ((items (groups exclude (queueMetrics "ekosis_buffered_sender" service inst)) (getDict stats "buffered_sender_sizes")).append
    (each (customMetrics service inst) stats)))))
  | _ => ([], some .attributeError)

end Verif.Prom
