import Verif.Datagram.Model

/-! Specification vocabulary for C99. -/

namespace Verif.Datagram.Spec

/-- Calls that are opening a socket. -/
def opening (s : St) : Nat := s.calls.countP (fun pc => match pc with | .opening _ => true | _ => false)

/-- `p` holds of every state and the event that happens in it. -/
def Along (max : Int) (p : St → Ev → Prop) : St → List Ev → Prop
  | _, [] => True
  | s, e :: es => p s e ∧ match step max s e with
    | none => True
    | some s' => Along max p s' es

/-- No attempt is begun while another call is opening a socket. -/
def alone (s : St) : Ev → Prop
  | .send => opening s = 0
  | .resume _ => opening s = 0
  | _ => True

/-- An attempt that times out. -/
def timesOut : Ev → Bool
  | .timeout _ => true
  | _ => false

end Verif.Datagram.Spec
