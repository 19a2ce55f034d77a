import Verif.Transient.Model

/-! Specification vocabulary for C98. -/

namespace Verif.Transient.Spec

/-- The states a client can be in. -/
def Reach (max : Int) (s : St) : Prop := ∃ es, steps max new es = some s

/-- How many connections were opened for message `i`. -/
def openedFor (s : St) (i : Nat) : Nat := s.conns.countP (fun c => c.owner == i)

/-- How many times message `i` was written to a connection. -/
def writes (s : St) (i : Nat) : Nat := (s.conns.map (fun c => c.written.count i)).sum

/-- Nothing fails: messages are sent, connections opened, answered and closed. -/
def smooth : Ev → Bool
  | .send => true
  | .opened _ => true
  | .line _ => true
  | .closed _ => true
  | _ => false

/-- Closing a connection fails. -/
def closingFails : Ev → Bool
  | .closeFails _ _ => true
  | _ => false

end Verif.Transient.Spec
