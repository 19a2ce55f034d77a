import Verif.Buffered.Model
import Verif.Client.Model
import Mathlib.Algebra.Order.Ring.Rat

/-!
# Model of the times at which messages are sent

`ekosis/sending/buffered_sender_base.py` ("bs") 87-104 with the waiting of lines 94-95, which `Verif.Buffered` leaves out, and the
delays between the attempts of the clients (`ekosis/clients/stream_client_base.py` ("sc"), `persistent_stream_client_base.py` ("pc"),
`datagram_client_base.py` ("dc")), which `Verif.Client` leaves out.

Time is a rational number of seconds. It passes only while everything is suspended: between two suspension points the code takes no time. A sleep ends
at the moment asked for or at any later moment. (asyncio may end it earlier by the resolution of its clock; this is left out.)
-/

namespace Verif.Pace

open Verif.Py Verif.Pending Verif.Buffered Verif.Client

variable {K D M R S : Type} [DecidableEq K]

/-- What can be seen of sending: a message is handed to the client (bs 96), and that call ends. -/
inductive Mark (K : Type) where
  | sent (k : K)
  | over (k : K)
  deriving DecidableEq

/-- A buffered sender with a clock: which workers are in `asyncio.sleep(self.wait_period)` and until when; what was seen, newest first. -/
structure Timed (K D M R S : Type) where
  core : St K D M R S
  now : ℚ
  sleeping : Nat → Option ℚ
  trace : List (ℚ × Mark K)

/-- Events: time passes; an event of the sender; the sleep of worker `t` ends. -/
inductive TLabel (K D R : Type) where
  | tick (d : ℚ)
  | event (l : Sender.Label K D R)
  | wake (t : Nat)

/-- Worker `t` has taken a message from the queue, or has ended: bs 94-96 up to the next suspension. -/
def handOver (wait : ℚ) (s : Timed K D M R S) (t : Nat) : Timed K D M R S :=
  match s.core.tasks[t]? with
  | some (.inFlight e) =>
    if wait > 0 then { s with sleeping := fun x => if x = t then some (s.now + wait) else s.sleeping x }
    else { s with trace := (s.now, .sent e.key) :: s.trace }
  | _ => s

/-- One event; `none` when it is not possible. A worker that sleeps can only be ended by cancelling it; `send_data` has not been called then. -/
def tstep (cfg : Cfg K D M R S) (wait : ℚ) (s : Timed K D M R S) : TLabel K D R → Option (Timed K D M R S)
  | .tick d => if 0 ≤ d then some { s with now := s.now + d } else none
  | .wake t => match s.sleeping t, s.core.tasks[t]? with
    | some u, some (.inFlight e) =>
      if u ≤ s.now then some { s with sleeping := fun x => if x = t then none else s.sleeping x, trace := (s.now, .sent e.key) :: s.trace }
      else none
    | _, _ => none
  | .event (.start t) => match Sender.step cfg s.core (.start t) with
    | some c => some (handOver wait { s with core := c } t)
    | none => none
  | .event (.finish t o) => match s.sleeping t, s.core.tasks[t]? with
    | some _, _ => match o, Sender.step cfg s.core (.finish t o) with
      | .raise, some c => some { s with core := c, sleeping := fun x => if x = t then none else s.sleeping x }
      | _, _ => none
    | none, some (.inFlight e) => match Sender.step cfg s.core (.finish t o) with
      | some c => some (handOver wait { s with core := c, trace := (s.now, .over e.key) :: s.trace } t)
      | none => none
    | none, _ => none
  | .event l => match Sender.step cfg s.core l with
    | some c => some { s with core := c }
    | none => none

/-- `setup`, bs 190-205. -/
def setup (cfg : Cfg K D M R S) (q : Pair K S) (now : ℚ) : Timed K D M R S where
  core := Sender.setup cfg q
  now := now
  sleeping := fun _ => none
  trace := []

/-! ### The attempts of one `send_message` -/

/-- The moments at which the attempts of a retry loop begin, sc 48-68, pc 131-152 with 122-128, dc 73-86: an attempt takes the time given with it
(reconnecting included), then the loop waits `delay` (`retry_delay`; `asyncio.sleep` does not wait if that is not positive) before it goes on. -/
def attemptsAt (kind : Kind) (max : Int) (delay : ℚ) : Int → ℚ → List (Bool × Attempt × ℚ) → List ℚ
  | _, _, [] => []
  | rc, now, (success, a, took) :: rest =>
    if rc < max ∧ (kind = .datagram ∨ success = false) then
      now :: match (after kind max rc a).1 with
        | .check rc' => attemptsAt kind max delay rc' (now + took + if 0 < delay then delay else 0) rest
        | _ => []
    else []

end Verif.Pace
