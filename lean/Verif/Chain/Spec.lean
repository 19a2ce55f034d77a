import Verif.Chain.Model

/-!
# Vocabulary of C80
-/

namespace Verif.Chain

open Verif.Span

variable {D : Type}

/-- Every call of a sender in the program has the keyword argument `span_key=k`. -/
def PassesOn (k : SpanKey) : Prog D → Prop
  | .ret => True
  | .call _ a _ next => a.kw.lookup "span_key" = some (.key k) ∧ ∀ res, PassesOn k (next res)
  | .soon b n => PassesOn k b ∧ PassesOn k n

/-- The applications follow the documentation: every endpoint has a parameter `span_key`, and passes it on in every call of a sender. -/
def Documented (apps : String → Option (Handler D)) : Prop :=
  ∀ route h, apps route = some h → h.wants = true ∧ ∀ k d, PassesOn k (h.run (.key k) d)

/-- The requests that come about because of a request, directly or over any number of applications. -/
inductive Chain (truthy : D → Bool) (apps : String → Option (Handler D)) (r : Req D) : Req D → Prop where
  | start : Chain truthy apps r r
  | more {r' r''} : Chain truthy apps r r' → Causes truthy apps r' r'' → Chain truthy apps r r''

/-- The key is the pair of a 128-bit number and a 64-bit number. -/
def Proper (k : SpanKey) : Prop := k.trace < 2 ^ 128 ∧ 0 ≤ k.span.value ∧ k.span.value < 2 ^ 64

end Verif.Chain
