import Verif.Pending.Model
import Verif.Queue.Observe

/-!
# Vocabulary of the properties of the pending/error pair
-/

namespace Verif.Pending

open Verif.Py Verif.Queue

variable {K D M R S : Type} [DecidableEq K]

/-- The pair holds `lp` pending and `le` failed, oldest first; every entry carries the key it is
queued under. -/
structure PairHolds (c : Codecs K D M R S) (q : Pair K S) (lp : List (K × PEntry K D M))
    (le : List (K × EEntry K D M R)) : Prop where
  p : Holds c.p q.pending lp
  e : Holds c.e q.error le
  pKeys : ∀ x ∈ lp, x.2.key = x.1
  eKeys : ∀ x ∈ le, x.2.key = x.1

/-- The pairs that can occur: any page size above zero, any calls, graceful restarts, and crashes
between calls. -/
inductive PReach (c : Codecs K D M R S) : Pair K S → Prop where
  | new {p} : 0 < p → PReach c (Pair.open p [] [])
  | pushPending {q} (k d r m) : PReach c q → PReach c (q.pushPending c k d r m).2
  | pushError {q} (k d r m) : PReach c q → PReach c (q.pushError c k d r m).2
  | pop {q} : PReach c q → PReach c (q.pop c).2
  | moveAll {q n r} : PReach c q → q.moveAllN c n = some r → PReach c r.2
  | moveOne {q} (k) : PReach c q → PReach c (q.moveOne c k).2
  | clearError {q} : PReach c q → PReach c q.clearError
  | popError {q} (k) : PReach c q → PReach c (q.popError c k).2
  | popPending {q} (k) : PReach c q → PReach c (q.popPending c k).2
  | restart {q p} : PReach c q → 0 < p → PReach c (Pair.open p q.shutDown.2.pending.db q.shutDown.2.error.db)
  | crash {q p} : PReach c q → 0 < p → PReach c (Pair.open p q.pending.db q.error.db)

/-- The pending entry made from a failed one: same key, payload and metadata, no retries. -/
def revive (x : K × EEntry K D M R) : K × PEntry K D M := (x.1, ⟨x.1, 0, x.2.data, x.2.md⟩)

end Verif.Pending
