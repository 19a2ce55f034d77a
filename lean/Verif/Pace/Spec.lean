import Verif.Pace.Model
import Verif.Buffered.Spec

/-!
# What waiting between messages means
-/

namespace Verif.Pace

open Verif.Py Verif.Pending Verif.Buffered Verif.Client

variable {K D M R S : Type} [DecidableEq K]

/-- The states a sender with a clock can get into. -/
inductive TReach (cfg : Cfg K D M R S) (wait : ℚ) : Timed K D M R S → Prop where
  | setup {q now} : PReach cfg.codecs q → TReach cfg wait (setup cfg q now)
  | step {s l s'} : TReach cfg wait s → tstep cfg wait s l = some s' → TReach cfg wait s'

/-- A sequence of events. -/
def trun (cfg : Cfg K D M R S) (wait : ℚ) (s : Timed K D M R S) : List (TLabel K D R) → Option (Timed K D M R S)
  | [] => some s
  | l :: ls => match tstep cfg wait s l with
    | none => none
    | some s' => trun cfg wait s' ls

/-- The event unpauses sending: the command of that name, or moving messages back from the error queue. -/
def Unpauses : TLabel K D R → Prop
  | .event .unpause => True
  | .event .reprocessAll => True
  | .event (.reprocessOne _) => True
  | _ => False

/-- Newest first: a message is handed over at least `wait` after everything that was seen before it, that is after the previous message was handed over
and after the call for it had ended. -/
def Paced (wait : ℚ) : List (ℚ × Mark K) → Prop
  | [] => True
  | (u, .sent _) :: rest => (∀ x ∈ rest, x.1 + wait ≤ u) ∧ Paced wait rest
  | (_, .over _) :: rest => Paced wait rest

/-- Newest first: calls do not overlap. Every call ends before the next one begins, and it is the call for that message. -/
def InTurn : List (ℚ × Mark K) → Prop
  | [] => True
  | (_, .sent _) :: [] => True
  | (_, .sent _) :: (v, .over k) :: rest => InTurn ((v, .over k) :: rest)
  | (_, .sent _) :: (_, .sent _) :: _ => False
  | (_, .over _) :: [] => False
  | (_, .over k) :: (v, .sent k') :: rest => k = k' ∧ InTurn ((v, .sent k') :: rest)
  | (_, .over _) :: (_, .over _) :: _ => False

/-- The moments at which messages were handed over, newest first. -/
def handed : List (ℚ × Mark K) → List ℚ
  | [] => []
  | (u, .sent _) :: rest => u :: handed rest
  | (_, .over _) :: rest => handed rest

/-- Increasing moments are at least `gap` apart. -/
def Apart (gap : ℚ) : List ℚ → Prop
  | [] => True
  | [_] => True
  | a :: b :: rest => a + gap ≤ b ∧ Apart gap (b :: rest)

end Verif.Pace
