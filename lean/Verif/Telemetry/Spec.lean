import Verif.Telemetry.Model
import Verif.Stats.Spec

/-! What is expected of the telemetry. -/

namespace Verif.Telemetry.Spec

open Verif.Py Verif.Stats

/-- A data point: the tags all points have, one more that says where the number belongs, and the number under its name. -/
def datum (b : Common) (tag place field : String) (value : Stat) : Point :=
  { tags := [("eco_host_name", .text b.host), ("eco_app_name", b.name), ("eco_app_instance", b.inst), (tag, .text place)]
    fields := [(field, value)]
    time := b.time }

/-- A text occurs in another one. -/
def Occurs (p s : String) : Prop := p.toList <:+: s.toList

/-- A route of the framework itself: its first segment is "eco". -/
def Standard (route : String) : Prop := "eco.".toList <+: (route ++ ".").toList

/-- The statistics of an endpoint. -/
def endpointFields : List String := ["call_count", "p95", "p99"]

/-- The sizes of the queues of a buffered endpoint or sender. -/
def queueFields : List String := ["pending", "error"]

/-- The route can be told from the data points: it does not contain the names of statistics behind a dot. -/
def Tellable (fields : List String) (route : String) : Prop := ∀ f ∈ fields, ¬ Occurs ("." ++ f) route

/-- Where the sizes of the queues of endpoints and senders stand. -/
def kinds : List String := ["buffered_endpoint_sizes", "buffered_sender_sizes"]

/-- The key under which the size of a queue stands. -/
def queueKey (kind route field : String) : String := kind ++ "." ++ route ++ "." ++ field

/-- What the framework writes where the telemetry reads, only the framework writes; and queues are added as buffered endpoints and
senders do. -/
def AsFramework : Ev → Prop
  | .set k _ | .increment k _ => (split k).head? ≠ some "endpoint_data" ∧ ∀ kind ∈ kinds, (split k).head? ≠ some kind
  | .addQueue k => ∃ kind ∈ kinds, ∃ route, ∃ f ∈ queueFields, k = queueKey kind route f
  | _ => True

/-- The route does not begin with a dot, and is not empty. -/
def Started (route : String) : Prop := route ≠ "" ∧ route.toList.head? ≠ some '.'

end Verif.Telemetry.Spec
