import Verif.Tasks.Model

/-!
# Vocabulary of the properties of tasks
-/

namespace Verif.Tasks

variable {K : Type}

/-- The lines `c` logs, each with the key it belongs to: a line belongs to the innermost request or message in whose text it stands,
whatever task runs it; `ctx` is the key outside. -/
def lines (ctx : Option K) : Code K → List (Nat × Option K)
  | .done => []
  | .log id r => (id, ctx) :: lines ctx r
  | .wait r => lines ctx r
  | .fail => []
  | .block k _ b r => lines (some k) b ++ lines ctx r
  | .soon b r => lines ctx b ++ lines ctx r
  | .spawn b r => lines ctx b ++ lines ctx r
  | .put _ k b r => lines (some k) b ++ lines ctx r
  | .check _ r => lines ctx r
  | .loop _ => []

/-- No exception is raised. -/
def quietCode : Code K → Bool
  | .done => true
  | .log _ r => quietCode r
  | .wait r => quietCode r
  | .fail => false
  | .block _ _ b r => quietCode b && quietCode r
  | .soon b r => quietCode b && quietCode r
  | .spawn b r => quietCode b && quietCode r
  | .put _ _ b r => quietCode b && quietCode r
  | .check _ r => quietCode r
  | .loop _ => true

/-- The workers of buffered senders log nothing: whatever is put into the queue of a component that is not a buffered endpoint has no line
of its own. -/
def SilentSenders (endpoint : Nat → Bool) : Code K → Prop
  | .done => True
  | .log _ r => SilentSenders endpoint r
  | .wait r => SilentSenders endpoint r
  | .fail => True
  | .block _ _ b r => SilentSenders endpoint b ∧ SilentSenders endpoint r
  | .soon b r => SilentSenders endpoint b ∧ SilentSenders endpoint r
  | .spawn b r => SilentSenders endpoint b ∧ SilentSenders endpoint r
  | .put w k b r => (endpoint w = true ∨ lines (some k) b = []) ∧ SilentSenders endpoint b ∧ SilentSenders endpoint r
  | .check _ r => SilentSenders endpoint r
  | .loop _ => True

/-- The states of a loop to which tasks with the code `given` were given from outside. -/
inductive Reach (endpoint : Nat → Bool) : St K → List (Code K) → Prop where
  | start : Reach endpoint {} []
  | step {s s' l given} : Reach endpoint s given → step endpoint s l = some s' →
      Reach endpoint s' (match l with | .connect c => given ++ [c] | _ => given)

/-- Nothing is left to do. -/
def Idle (s : St K) : Prop :=
  s.current = none ∧ s.ready = [] ∧ s.queue = [] ∧ ∀ x ∈ s.tasks, x.over = true

instance [DecidableEq K] (s : St K) : Decidable (Idle s) := by unfold Idle; infer_instance

end Verif.Tasks
