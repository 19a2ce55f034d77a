import Verif.Prom.Model
import Verif.Stats.Spec

/-! # What users expect of the exporter -/

namespace Verif.Prom.Spec

open Verif.Py Verif.Stats Verif.Stats.Spec

/-- The names below `endpoint_data.<route>` and the queue sizes. -/
def leaves (top : String) : List String :=
  if top = "endpoint_data" then ["call_count", "p95", "p99"] else ["pending", "error"]

/-- The third part of a route is not the name of a statistic. -/
def PlainRoute (top : String) (route : List String) : Prop :=
  ∀ g e x rest, route = g :: e :: x :: rest → x ∉ leaves top

/-- The names the framework uses for its own statistics. -/
def reserved : List String :=
  ["application", "timestamp", "uptime", "gather_period", "endpoint_data", "buffered_endpoint_sizes", "buffered_sender_sizes"]

/-- What an ordinary application does to its statistics: its own statistics do not use the names of the framework, the queues are those of
buffered endpoints and senders, and routes are plain. -/
def Plain : Ev → Prop
  | .track r | .call r _ => PlainRoute "endpoint_data" (split r)
  | .set k _ | .increment k _ => ∀ top, (split k).head? = some top → top ∉ reserved
  | .addQueue k => ∃ top route leaf, (top = "buffered_endpoint_sizes" ∨ top = "buffered_sender_sizes") ∧ leaf ∈ ["pending", "error"] ∧
      k = top ++ "." ++ route ++ "." ++ leaf ∧ PlainRoute top (split route)
  | _ => True

/-- The metrics of endpoints and queues: name, branch of the statistics, name of the statistic. -/
def table : List (String × String × String) :=
  [("ekosis_endpoint_call_count", "endpoint_data", "call_count"), ("ekosis_endpoint_p95_seconds", "endpoint_data", "p95"),
   ("ekosis_endpoint_p99_seconds", "endpoint_data", "p99"),
   ("ekosis_buffered_endpoint_queue_pending", "buffered_endpoint_sizes", "pending"),
   ("ekosis_buffered_endpoint_queue_error", "buffered_endpoint_sizes", "error"),
   ("ekosis_buffered_sender_queue_pending", "buffered_sender_sizes", "pending"),
   ("ekosis_buffered_sender_queue_error", "buffered_sender_sizes", "error")]

/-- `d` is what a keeper that is fresh before `es` answers to reading or gathering after `es`. -/
def Reported (n i : String) (st gp : ℚ) (hl : Int) (es : List Ev) (d : Store) : Prop :=
  ∃ now sizes e, (e = Ev.read now sizes ∨ e = .gather now sizes) ∧ (step (run (.new n i st gp hl) es) e).1 = .ok (some d)

/-- The name of the metric for the number at a path. -/
def customName : List String → String
  | [] => "ekosis_custom_"
  | k :: ks => ks.foldl (fun a x => a ++ "_" ++ safe x) ("ekosis_custom_" ++ k)
where
  safe (x : String) : String := String.ofList (x.toList.map fun c => if c = '.' ∨ c = '-' then '_' else c)

end Verif.Prom.Spec
