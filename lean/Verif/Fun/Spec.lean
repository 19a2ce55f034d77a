import Verif.Span.Model
import Verif.Fun.Model
import Verif.Wire.Spec

/-! # Vocabulary of C92 to C94 -/

namespace Verif.Fun.Spec

open Verif.Py Verif.Span

variable {T : Type}

/-- The key an operation is about. -/
def keyOf : Op T → SpanKey
  | .request k _ _ => k
  | .response k _ _ => k

/-- The keys in the order in which they were first heard of. -/
def heard : List (Op T) → List SpanKey
  | [] => []
  | op :: ops => keyOf op :: (heard ops).filter (· ≠ keyOf op)

/-- The last request logged under a key. -/
def lastRequest (k : SpanKey) : List (Op T) → Option (Str × T)
  | [] => none
  | op :: ops => match lastRequest k ops, op with
    | some x, _ => some x
    | none, .request k' m t => if k' = k then some (m, t) else none
    | none, .response _ _ _ => none

/-- The last response logged under a key. -/
def lastResponse (k : SpanKey) : List (Op T) → Option (Str × T)
  | [] => none
  | op :: ops => match lastResponse k ops, op with
    | some x, _ => some x
    | none, .response k' m t => if k' = k then some (m, t) else none
    | none, .request _ _ _ => none

/-- The row for a key, with the number `n`. -/
def rowOf (ops : List (Op T)) (k : SpanKey) (n : Nat) : Row T where
  id := n
  key := (k.bytes.toOption).getD []
  request := (lastRequest k ops).map Prod.fst
  requestTime := (lastRequest k ops).map Prod.snd
  response := (lastResponse k ops).map Prod.fst
  responseTime := (lastResponse k ops).map Prod.snd

/-- Everything logged under a key as a request is the same, and likewise for responses: as when messages are only repeated. -/
def Consistent (ops : List (Op T)) : Prop :=
  (∀ k m t m' t', .request k m t ∈ ops → .request k m' t' ∈ ops → m = m' ∧ t = t') ∧
    ∀ k m t m' t', .response k m t ∈ ops → .response k m' t' ∈ ops → m = m' ∧ t = t'

/-- A request whose first word, in whatever case and with white space around it, is `name`. Words are separated by blanks. -/
def Word (name : String) (request : Str) : Prop :=
  ∃ a w b rest, request = a ++ w ++ b ++ rest ∧ (∀ c ∈ a ++ b, Wire.Spec.White c ∧ c ≠ ' ') ∧ w.map Char.toLower = name.toList ∧
    (rest = [] ∨ ∃ r, rest = ' ' :: r)

/-- What is done after a service was asked. -/
def answered {E : Type} (ev : Event) : Except E Str → List Event × Outcome E
  | .ok s => ([ev, .logResponse s], .answer s)
  | .error e => ([ev], .service e)

/-- Lines, each with its end. -/
def lines : List Str → Str
  | [] => []
  | l :: ls => l ++ '\n' :: lines ls

/-- The second word of a request. -/
def SecondWord (request w : Str) : Prop :=
  ∃ first rest, request = first ++ ' ' :: (w ++ rest) ∧ ' ' ∉ first ∧ ' ' ∉ w ∧ (rest = [] ∨ ∃ r, rest = ' ' :: r)

/-- Six numbers and a bonus, as printed: every number takes two columns. -/
def two (n : Nat) : Str := if n < 10 then ' ' :: Nat.toDigits 10 n else Nat.toDigits 10 n

/-- Numbers with commas between them. -/
def commas : List Nat → Str
  | [] => []
  | [n] => two n
  | n :: m :: ns => two n ++ ", ".toList ++ commas (m :: ns)

/-- A line of the lottery. -/
def line (s : List Nat) (b : Nat) : Str := commas s ++ " [".toList ++ two b ++ "]".toList

/-- Six different numbers out of 51 in order, and a seventh. -/
def Admissible (s : List Nat) (b : Nat) : Prop :=
  s.length = 6 ∧ s.Pairwise (· < ·) ∧ b ∉ s ∧ ∀ n ∈ b :: s, 1 ≤ n ∧ n ≤ 51

end Verif.Fun.Spec
