import Verif.Traces.Model

/-!
# What tracing should do

Stated in terms of the events that happened and the spans that were created and finished.
-/

namespace Verif.Traces

open Verif.Span

/-- Key with a byte form. -/
def Proper (k : SpanKey) : Prop := k.trace < 2 ^ 128 ∧ 0 ≤ k.span.value ∧ k.span.value < 2 ^ 64

/-- Key whose ids OpenTelemetry accepts as well: both are positive. -/
def Traceable (k : SpanKey) : Prop := 0 < k.trace ∧ k.trace < 2 ^ 128 ∧ 0 < k.span.value ∧ k.span.value < 2 ^ 64

instance (k : SpanKey) : Decidable (Proper k) := by unfold Proper; infer_instance

instance (k : SpanKey) : Decidable (Traceable k) := by unfold Traceable; infer_instance

/-- The task an event is about. -/
def Event.task : Event → Option Nat
  | .arrive t _ _ => some t
  | .push t => some t
  | .respond t => some t
  | .fail t => some t
  | .stored _ => none
  | .attempt t _ _ _ => some t
  | .result t _ => some t
  | .crash t => some t
  | .restart => none

/-- Span `n` was finished exactly once, as `e` says. -/
def Finished (s : State) (n : Nat) (e : End) : Prop := s.tr.ended.filter (fun x => x.span = n) = [e]

/-- Span `n` is not finished. -/
def Unfinished (s : State) (n : Nat) : Prop := ∀ x ∈ s.tr.ended, x.span ≠ n

/-- The span a request ought to have. -/
def requestSpan (key : SpanKey) (route : List Char) : Span :=
  { name := route,
    parent := some { trace := key.trace, span := key.span.value.toNat, remote := true },
    attributes := [("request.trace_id", .text (uuidText key.trace)), ("request.span_id", .text key.span.hex),
                   ("request.route_key", .text route)] }

/-- The span an attempt ought to have, as child of the span with this id. -/
def attemptSpan (key : SpanKey) (cls : List Char) (retries parent : Nat) (remote : Bool) : Span :=
  { name := cls ++ ['.', 'p', 'r', 'o', 'c', 'e', 's', 's'],
    parent := some { trace := key.trace, span := parent, remote := remote },
    attributes := [("request.trace_id", .text (uuidText key.trace)), ("request.span_id", .text key.span.hex),
                   ("request.retries", .num retries)] }

/-- Nothing that happens in `mid`, after `pre`, disturbs request `t` with key `k`: no restart, no other request with this key arrives,
none that arrived earlier finishes, and `t` itself only queues work. -/
structure Undisturbed (t : Nat) (k : SpanKey) (pre mid : List Event) : Prop where
  no_restart : Event.restart ∉ mid
  own : ∀ e ∈ mid, e.task = some t → e = .push t
  no_arrival : ∀ u route, Event.arrive u k route ∉ mid
  no_response : ∀ u, Event.respond u ∈ mid → ∀ route, Event.arrive u k route ∉ pre

/-- Nothing that happens in `mid` disturbs attempt `t` of a request with key `k`, when these are the items queued in the end: no
restart, no other attempt with this key begins or reports a result meanwhile, and nothing happens to `t` itself. -/
structure UndisturbedAttempt (t : Nat) (k : SpanKey) (queued : List Item) (pre mid : List Event) : Prop where
  no_restart : Event.restart ∉ mid
  own : ∀ e ∈ mid, e.task ≠ some t
  no_attempt : ∀ u i cls r, Event.attempt u i cls r ∈ mid → ∀ item, queued[i]? = some item → item.key ≠ k
  no_result : ∀ u b, Event.result u b ∈ mid → ∀ i cls r, Event.attempt u i cls r ∈ pre → ∀ item, queued[i]? = some item → item.key ≠ k

/-- Span `n`, created as `x`, comes from a request that arrived or an attempt that began after `n` other spans were created, and is named
after it. -/
def Source (ids : Nat → Nat) (es : List Event) (n : Nat) (x : Span) : Prop :=
  ∃ pre e post, es = pre ++ e :: post ∧ (run ids init pre).tr.started.length = n ∧
    ((∃ t k route, e = .arrive t k route ∧ x.name = route) ∨
     (∃ t i cls r, e = .attempt t i cls r ∧ x.name = cls ++ ['.', 'p', 'r', 'o', 'c', 'e', 's', 's']))

end Verif.Traces
