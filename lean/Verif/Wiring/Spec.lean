import Verif.Wiring.Model

/-!
# Vocabulary of C81
-/

namespace Verif.Wiring

/-- The route under which the declaration takes part in routing. -/
def Decl.routed : Decl → Option String
  | .endpoint r => some r
  | .bufferedEndpoint r => some r
  | .bufferedSender _ => none

/-- Number `i` is the first endpoint, ordinary or buffered, for the route. -/
def FirstFor (ds : List Decl) (r : String) (i : Nat) : Prop :=
  (ds[i]?.bind Decl.routed) = some r ∧ ∀ j, j < i → (ds[j]?.bind Decl.routed) ≠ some r

/-- Number `i` is the last buffered sender for the route. -/
def LastFor (ds : List Decl) (r : String) (i : Nat) : Prop :=
  ds[i]? = some (.bufferedSender r) ∧ ∀ j, i < j → ds[j]? ≠ some (.bufferedSender r)

/-- After these declarations and the start, number `i` is ready to work. -/
def Ready (ds : List Decl) (i : Nat) : Prop :=
  (∃ r, ds[i]? = some (.bufferedEndpoint r) ∧ FirstFor ds r i) ∨ ∃ r, LastFor ds r i

end Verif.Wiring
