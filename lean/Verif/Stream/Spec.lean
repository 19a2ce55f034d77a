import Verif.Stream.Model

/-!
# What a connection should do with a stream of bytes
-/

namespace Verif.Stream.Spec

open Verif.Py Verif.Server Verif.Stream

variable {K σ A : Type}

/-- The complete lines of a stream, each with its newline, and what follows the last newline. -/
def lines : Bytes → List Bytes × Bytes
  | [] => ([], [])
  | b :: bs =>
    if b = 10 then ([b] :: (lines bs).1, (lines bs).2)
    else match (lines bs).1 with
      | [] => ([], b :: (lines bs).2)
      | l :: ls => ((b :: l) :: ls, (lines bs).2)

/-- The bytes that arrive in a sequence of events. -/
def received : List Ev → Bytes
  | [] => []
  | .feed c :: es => c ++ received es
  | _ :: es => received es

/-- A heartbeat: a line whose first byte is ENQ. -/
def Heartbeat (l : Bytes) : Prop := ∃ t, l = 5 :: t

instance (l : Bytes) : Decidable (Heartbeat l) :=
  match l with
  | [] => .isFalse (fun ⟨_, h⟩ => by cases h)
  | b :: t => if h : b = 5 then .isTrue ⟨t, by rw [h]⟩ else .isFalse (fun ⟨_, e⟩ => h (by cases e; rfl))

/-- `Replied E l w o w'`: what the line `l`, met in the state `w`, is to be answered with, and the state
afterwards. A heartbeat gets an ACK line and touches nothing; any other line gets the router's response to
its text as one line. -/
inductive Replied (E : Endpoint K σ) : Bytes → World K σ → Bytes → World K σ → Prop
  | heartbeat (l w) : Heartbeat l → Replied E l w [6, 10] w
  | request (l w text resp s w') : ¬ Heartbeat l → decode l = some text →
      routeRequest E.server text w = (.ok resp, w') → E.dumps resp = some s →
      Replied E l w (encode (s ++ "\n")) w'

/-- One reply per line, in order, the application's state being passed on. -/
inductive Exchange (E : Endpoint K σ) : List Bytes → World K σ → List Bytes → World K σ → Prop
  | nil (w) : Exchange E [] w [] w
  | cons (l ls w o w' os w'') : Replied E l w o w' → Exchange E ls w' os w'' →
      Exchange E (l :: ls) w (o :: os) w''

/-- No line of the stream is longer than `limit` (the newline not counted), and neither is the rest. -/
def Fits (limit : Nat) (bytes : Bytes) : Prop :=
  (∀ l ∈ (lines bytes).1, l.length ≤ limit + 1) ∧ (lines bytes).2.length ≤ limit

instance (limit : Nat) (bytes : Bytes) : Decidable (Fits limit bytes) := by unfold Fits; infer_instance

/-- The handler task can do nothing more with what has arrived. -/
def Quiet (E : Endpoint K σ) (c : Conn K σ) : Prop := step E c .turn = none

/-! ### Datagrams -/

/-- The requests among the datagrams that arrive, with their senders: newline-terminated text not starting
with the byte 6. -/
def requests : List (DEv A) → List (String × A)
  | [] => []
  | .receive b a :: es =>
    if b.getLast? = some 10 ∧ b.head? ≠ some 6 then
      match decode b with
      | some text => (text, a) :: requests es
      | none => requests es
    else requests es
  | _ :: es => requests es

/-- The senders of newline-terminated datagrams starting with the byte 6. -/
def pings : List (DEv A) → List A
  | [] => []
  | .receive b a :: es => if b.getLast? = some 10 ∧ b.head? = some 6 then a :: pings es else pings es
  | _ :: es => pings es

/-- Requests answered in order, each response going to the sender of its request; a request for which no
response can be built gets none. -/
inductive Answered (E : Endpoint K σ) : List (String × A) → World K σ → List (Bytes × A) → World K σ → Prop
  | nil (w) : Answered E [] w [] w
  | response (text a rs w resp w' s out w'') : routeRequest E.server text w = (.ok resp, w') →
      E.dumps resp = some s → Answered E rs w' out w'' →
      Answered E ((text, a) :: rs) w ((encode s, a) :: out) w''
  | silent (text a rs w r w' out w'') : routeRequest E.server text w = (r, w') →
      (∀ resp, r = .ok resp → E.dumps resp = none) → Answered E rs w' out w'' →
      Answered E ((text, a) :: rs) w out w''

/-- `Merged xs ys zs`: `zs` is an interleaving of `xs` and `ys`. -/
inductive Merged {α : Type} : List α → List α → List α → Prop
  | nil : Merged [] [] []
  | left (x xs ys zs) : Merged xs ys zs → Merged (x :: xs) ys (x :: zs)
  | right (y xs ys zs) : Merged xs ys zs → Merged xs (y :: ys) (y :: zs)

end Verif.Stream.Spec
