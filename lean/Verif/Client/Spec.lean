import Verif.Client.Model

/-!
# What clients should do
-/

namespace Verif.Client.Spec

open Verif.Py Verif.Client

/-- The documented client errors (`ekosis.exceptions`). -/
def Documented : Err → Prop
  | .parsing _ | .denied _ | .validation _ | .routeKeyUnknown _ | .busy _ | .processing _ | .unhandled _
  | .unknownStatus _ | .nonRetryable | .maxRetries => True
  | .json | .schema | .py _ | .os | .base => False

/-- `Matches status e`: `e` is the error that belongs to the response status. -/
def Matches (status : Int) (e : Err) : Prop :=
  (status = 100 ∧ ∃ m, e = .parsing m) ∨ (status = 200 ∧ ∃ m, e = .denied m) ∨
  (status = 300 ∧ ∃ m, e = .validation m) ∨ (status = 400 ∧ ∃ m, e = .routeKeyUnknown m) ∨
  (status = 500 ∧ ∃ m, e = .busy m) ∨ (status = 600 ∧ ∃ m, e = .processing m) ∨
  (status = 999 ∧ ∃ m, e = .unhandled m) ∨
  (status ∉ ([0, 100, 200, 300, 400, 500, 600, 999] : List Int) ∧ ∃ m, e = .unknownStatus m)

/-- Which failures are worth another attempt. -/
def retryable : Kind → Attempt → Bool
  | _, .timeout => true
  | .transient, .broken _ => true
  | .persistent, .broken reconnected => reconnected
  | .persistent, .empty reconnected => reconnected
  | _, _ => false

/-- How a send ends at an attempt that is not worth another one. -/
def final : Kind → Attempt → End
  | _, .reply s => .value s
  | _, .base => .raised .base
  | .persistent, .broken _ => .raised .os
  | .persistent, .empty _ => .raised .os
  | _, _ => .raised .nonRetryable

/-- How a send with at most `max` attempts ends, given the outcomes in turn, and after how many attempts:
the first outcome that is not retryable decides, unless `max` retryable ones come before it. -/
def verdict (kind : Kind) (max : Nat) (as : List Attempt) : End × Nat :=
  let n := (as.takeWhile (retryable kind)).length
  if max ≤ n then (.raised .maxRetries, max)
  else match as[n]? with
    | some a => (final kind a, n + 1)
    | none => (.pending, n)

/-- The outcomes of the attempts of send `i`, in turn. -/
def outcomes (i : Nat) : List SEv → List Attempt
  | [] => []
  | .outcome j a :: es => if j = i then a :: outcomes i es else outcomes i es
  | _ :: es => outcomes i es

/-- Every reply that was read answers the line of whoever read it. -/
def Correct (got : List (Waiter × Line)) : Prop := ∀ x ∈ got, x.2 = x.1.line

/-- What is written on a connection by a sequence of events without loss. -/
def written : List PEv → List Line
  | [] => []
  | .send w :: es => w.line :: written es
  | _ :: es => written es

/-- Events that keep replies and readers in step: no time-out, and a connection is found lost or replaced only when nobody
else waits for a reply. -/
def Calm (p : Pipe) : PEv → Prop
  | .timeout => False
  | .lost => p.waiting.length = 1
  | .reconnect => p.waiting = []
  | _ => True

/-- A run all of whose events satisfy `P` in the state in which they happen. -/
def Along (P : Pipe → PEv → Prop) : Pipe → List PEv → Prop
  | _, [] => True
  | p, e :: es => P p e ∧ match pstep p e with
    | none => False
    | some p' => Along P p' es

end Verif.Client.Spec
