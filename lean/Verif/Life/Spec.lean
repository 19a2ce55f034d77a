import Verif.Life.Model

/-!
# Vocabulary of C74 and C75
-/

namespace Verif.Life.Spec

open Verif.Life

/-- The components whose queues were opened, in order. -/
def openedIn : List Ev → List Nat
  | [] => []
  | .opened i :: l => i :: openedIn l
  | _ :: l => openedIn l

/-- The components whose queues were saved, in order. -/
def savedIn : List Ev → List Nat
  | [] => []
  | .saved i :: l => i :: savedIn l
  | _ :: l => savedIn l

/-- The last thing that happened is that the log was flushed. -/
def FlushedLast (l : List Ev) : Prop := ∃ l', l = l' ++ [.flushed]

/-- Is the application's own code, in the middle of this, free of handlers that swallow every exception? -/
def NotSwallowed (us : List Bool) : Prop := true ∉ us

end Verif.Life.Spec
