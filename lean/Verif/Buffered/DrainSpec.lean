import Verif.Buffered.Spec

/-!
# Vocabulary of C82

How much a buffered endpoint or sender has to do, and what it does on its own, without requests from outside and without an operator.
-/

namespace Verif.Buffered

open Verif.Py Verif.Queue Verif.Pending

variable {K D M R S : Type} [DecidableEq K]

/-- The attempts that a message which failed `r` times can still take: one at least. -/
def left (c r : Nat) : Nat := max 1 (c - r)

/-- The attempts that the messages of a queue can still take. -/
def load (c : Nat) (lp : List (K × PEntry K D M)) : Nat := (lp.map fun x => left c x.2.retries).sum

/-- Workers that were created and have not run. -/
def created : List (Task K D M) → Nat
  | [] => 0
  | .scheduled :: l => created l + 1
  | _ :: l => created l

/-- An upper bound of the events to come: one for every attempt and one for every worker that has yet to run. -/
def toDo (c : Nat) (lp : List (K × PEntry K D M)) (tasks : List (Task K D M)) : Nat :=
  load c lp + ((inFlight tasks).map fun e => left c e.retries).sum + created tasks

/-- What an endpoint does on its own: requests that it is taking in are accepted or refused, accepted ones are put into the queue,
workers run. -/
def HOwn : Handler.Label K D M R → Prop
  | .accept _ _ => True
  | .refuse _ => True
  | .push _ => True
  | .start _ => True
  | .finish _ _ => True
  | _ => False

/-- `next` chooses events that make `s` into `s'` in `n` steps. -/
def SFollows (cfg : Cfg K D M R S) (next : St K D M R S → Sender.Label K D R) : Nat → St K D M R S → St K D M R S → Prop
  | 0, s, s' => s = s'
  | n + 1, s, s' => ∃ s1, Sender.step cfg s (next s) = some s1 ∧ SFollows cfg next n s1 s'

/-- The same for an endpoint. -/
def HFollows (cfg : Cfg K D M R S) (next : Handler.HSt K D M R S → Handler.Label K D M R) : Nat → Handler.HSt K D M R S → Handler.HSt K D M R S → Prop
  | 0, s, s' => s = s'
  | n + 1, s, s' => ∃ s1, Handler.step cfg s (next s) = some s1 ∧ HFollows cfg next n s1 s'

/-- Whenever a worker can do something, `next` lets a worker do something that is possible, and no attempt ends with an exception. -/
def SKeepsGoing (cfg : Cfg K D M R S) (next : St K D M R S → Sender.Label K D R) : Prop :=
  ∀ s l s', SWork l → Sender.step cfg s l = some s' →
    SWork (next s) ∧ (∀ t, next s ≠ .finish t .raise) ∧ ∃ s1, Sender.step cfg s (next s) = some s1

/-- The same for an endpoint. -/
def HKeepsGoing (cfg : Cfg K D M R S) (next : Handler.HSt K D M R S → Handler.Label K D M R) : Prop :=
  ∀ s l s', HWork l → Handler.step cfg s l = some s' →
    HWork (next s) ∧ (∀ t, next s ≠ .finish t .raise) ∧ ∃ s1, Handler.step cfg s (next s) = some s1

end Verif.Buffered
