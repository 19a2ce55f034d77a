import Verif.Queue.Model

/-!
# Model of `ekosis/queues/pending_queue.py`

A pending queue and an error queue, both persistent queues of `Verif.Queue.Model`.
`K` are span keys, `D` payloads (JSON objects), `M` metadata dictionaries, `R` reason texts,
`S` the stored JSON text.

Simplifications: `metadata or {}` is applied by the caller (`M` has no "missing" value); logging is
left out; the coroutines contain no point at which another task can run, so each call is one step.
-/

namespace Verif.Pending

open Verif.Py Verif.Queue

variable {K D M R S : Type} [DecidableEq K]

/-- `PendingEntry`, pending_queue.py 11-15. -/
structure PEntry (K D M : Type) where
  key : K
  retries : Nat
  data : D
  md : M
  deriving DecidableEq, Repr

/-- `ErrorEntry`, pending_queue.py 18-22. -/
structure EEntry (K D M R : Type) where
  key : K
  data : D
  reason : R
  md : M
  deriving DecidableEq, Repr

/-- The two codecs: `PendingEntry` and `ErrorEntry` to JSON text and back. -/
structure Codecs (K D M R S : Type) where
  p : Codec (PEntry K D M) S
  e : Codec (EEntry K D M R) S

/-- Both codecs read back what they wrote. -/
def Codecs.Lawful (c : Codecs K D M R S) : Prop := c.p.Lawful ∧ c.e.Lawful

/-- `PendingQueue`, pending_queue.py 25-36. -/
structure Pair (K S : Type) where
  pending : PQ K S
  error : PQ K S
  deriving DecidableEq, Repr

namespace Pair

/-- `PendingQueue.__init__`, pending_queue.py 29-36, 132-137. -/
def «open» (pageSize : Nat) (tp te : Table K S) : Pair K S := ⟨PQ.open pageSize tp, PQ.open pageSize te⟩

/-- `shut_down`, pending_queue.py 39-41: an exception in the first queue skips the second. -/
def shutDown (q : Pair K S) : Except PyErr Unit × Pair K S :=
  match q.pending.shutDown with
  | (.error e, p) => (.error e, { q with pending := p })
  | (.ok _, p) => (q.error.shutDown.1, ⟨p, q.error.shutDown.2⟩)

/-- `has_pending`, pending_queue.py 44-45. -/
def hasPending (q : Pair K S) : Bool := !q.pending.isEmpty

/-- `push_pending`, pending_queue.py 107-114. -/
def pushPending (c : Codecs K D M R S) (q : Pair K S) (k : K) (d : D) (retries : Nat) (m : M) :
    Except PyErr Unit × Pair K S :=
  let r := q.pending.push c.p ⟨k, retries, d, m⟩ k
  (r.1.map (fun _ => ()), { q with pending := r.2 })

/-- `push_error`, pending_queue.py 117-125. -/
def pushError (c : Codecs K D M R S) (q : Pair K S) (k : K) (d : D) (reason : R) (m : M) :
    Except PyErr Unit × Pair K S :=
  let r := q.error.push c.e ⟨k, d, reason, m⟩ k
  (r.1.map (fun _ => ()), { q with error := r.2 })

/-- `pop`, pending_queue.py 128-129. -/
def pop (c : Codecs K D M R S) (q : Pair K S) : Except PyErr (Option (PEntry K D M)) × Pair K S :=
  let r := q.pending.pop c.p
  (r.1, { q with pending := r.2 })

/-- `move_all_error_to_pending`, pending_queue.py 60-63, at most `fuel` rounds of the loop; `none` when
that is not enough. A pop that answers nothing makes `popped_error_entry.span_key` raise. -/
def moveAllN (c : Codecs K D M R S) : Nat → Pair K S → Option (Except PyErr Unit × Pair K S)
  | 0, _ => none
  | fuel + 1, q =>
    if q.error.size > 0 then
      match q.error.pop c.e with
      | (.error e, er) => some (.error e, { q with error := er })
      | (.ok none, er) => some (.error .attributeError, { q with error := er })
      | (.ok (some x), er) =>
        match pushPending c { q with error := er } x.key x.data 0 x.md with
        | (.error e, q') => some (.error e, q')
        | (.ok _, q') => moveAllN c fuel q'
    else some (.ok (), q)

/-- `move_one_error_to_pending`, pending_queue.py 65-70. A pydantic object is always true in a
condition. -/
def moveOne (c : Codecs K D M R S) (q : Pair K S) (k : K) : Except PyErr (Option D) × Pair K S :=
  match q.error.popKey c.e k with
  | (.error e, er) => (.error e, { q with error := er })
  | (.ok none, er) => (.ok none, { q with error := er })
  | (.ok (some x), er) =>
    match pushPending c { q with error := er } k x.data 0 x.md with
    | (.error e, q') => (.error e, q')
    | (.ok _, q') => (.ok (some x.data), q')

/-- `clear_error_queue`, pending_queue.py 72-73. -/
def clearError (q : Pair K S) : Pair K S := { q with error := q.error.clear }

/-- `pop_error_q_span_key`, pending_queue.py 80-87. -/
def popError (c : Codecs K D M R S) (q : Pair K S) (k : K) : Except PyErr (Option D) × Pair K S :=
  let r := q.error.popKey c.e k
  (r.1.map (Option.map EEntry.data), { q with error := r.2 })

/-- `pop_pending_q_span_key`, pending_queue.py 80-84, 89-90. -/
def popPending (c : Codecs K D M R S) (q : Pair K S) (k : K) : Except PyErr (Option D) × Pair K S :=
  let r := q.pending.popKey c.p k
  (r.1.map (Option.map PEntry.data), { q with pending := r.2 })

/-- `inspect_error_q_span_key`, pending_queue.py 94-101. -/
def inspectError (c : Codecs K D M R S) (q : Pair K S) (k : K) : Except PyErr (Option D) :=
  (q.error.inspect c.e k).map (Option.map EEntry.data)

end Pair

/-! ### Operator calls of buffered endpoints and buffered senders

`truthy` is Python's truth value of the payload dictionary: false for `{}`. The construction
`request_dto_type(**payload)` is left out; it only turns the dictionary into an object. The pausing
around `reprocess` is modelled in `Verif.Handler` and `Verif.Sender`. -/

/-- `if not x: return None` followed by returning `x`. -/
def orNone (truthy : D → Bool) : Option D → Option D
  | none => none
  | some d => if truthy d then some d else none

/-- `pop_request_from_error_queue`, buffered_handler_base.py 92-96, buffered_sender_base.py 143-147. -/
def opPop (truthy : D → Bool) (c : Codecs K D M R S) (q : Pair K S) (k : K) : Except PyErr (Option D) × Pair K S :=
  let r := q.popError c k
  (r.1.map (orNone truthy), r.2)

/-- `inspect_request_in_error_queue`, buffered_handler_base.py 99-103, buffered_sender_base.py 150-154. -/
def opInspect (truthy : D → Bool) (c : Codecs K D M R S) (q : Pair K S) (k : K) : Except PyErr (Option D) :=
  (q.inspectError c k).map (orNone truthy)

/-- `reprocess_error_queue_span_key`, buffered_handler_base.py 113-120, buffered_sender_base.py 164-171. -/
def opReprocess (truthy : D → Bool) (c : Codecs K D M R S) (q : Pair K S) (k : K) :
    Except PyErr (Option D) × Pair K S :=
  let r := q.moveOne c k
  (r.1.map (orNone truthy), r.2)

end Verif.Pending
