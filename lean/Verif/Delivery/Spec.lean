import Verif.Delivery.Model
import Verif.Buffered.Spec

/-!
# Vocabulary of the properties of a sender and an endpoint together
-/

namespace Verif.Delivery

open Verif.Py Verif.Buffered Verif.Client

variable {K D M S M' R' S' : Type} [DecidableEq K]

/-- The states the two applications and the network can get into, when every event satisfies `P`. -/
inductive NReach (X : Setting K D M S M' R' S') (P : Label K D M' R' → Prop) : Net K D M S M' R' S' → Prop where
  | start {q q'} : Pending.PReach X.snd.codecs q → Pending.PReach X.rcv.codecs q' → NReach X P (Net.start X q q')
  | step {n l n'} : NReach X P n → P l → step X n l = some n' → NReach X P n'

/-- Nothing is given up while a reply to it may still come on the connection that will be used next: only a persistent client
whose connection broke gives up after writing. -/
def Patient (kind : Kind) : Label K D M' R' → Prop
  | .gone (.broken _) => kind = .persistent
  | .gone (.empty _) => kind = .persistent
  | .gone _ => False
  | _ => True

/-- No restriction for the transient client, `Patient` for the others. -/
def Safe (kind : Kind) (l : Label K D M' R') : Prop := kind = .transient ∨ Patient kind l

/-- Every request that was written gets its reply (or is waited for forever), and only this sender talks to the endpoint. -/
def Undisturbed : Label K D M' R' → Prop
  | .gone _ => False
  | .foreign _ _ => False
  | _ => True

/-- No cancellation on either side, handlers do not raise, and only payloads that are the JSON form of a message are sent. -/
def Orderly (X : Setting K D M S M' R' S') : Label K D M' R' → Prop
  | .unsent a => a ≠ .base
  | .gone a => a ≠ .base
  | .receiver (.finish _ o) => o ≠ .raise
  | .sender (.enqueue _ d) => ∃ raw, X.snd.build raw = some d
  | _ => True

/-- How often the endpoint accepted a request with span key `k`. -/
def copies (k : K) : List (Ev K D M' R') → Nat
  | [] => 0
  | .acked k' _ _ :: l => if k' = k then copies k l + 1 else copies k l
  | _ :: l => copies k l

/-- The endpoint accepted a message that the sender handed to its client under `k`: same key, and the payload is the endpoint's
reading of what was sent. -/
def Arrived (build : D → Option D) (sent : List (Ev K D M String)) (got : List (Ev K D M' R')) (k : K) : Prop :=
  ∃ e d m, .started e ∈ sent ∧ e.key = k ∧ build e.data = some d ∧ .acked k d m ∈ got

end Verif.Delivery
