import Verif.Queue.Props

/-!
# C11 with page size 0

`BufferedRequestHandlerBase` takes 0 for its page size when none is given (buffered_handler_base.py 37). What becomes of queues with this page size.
-/

set_option linter.unusedSectionVars false

namespace Verif.Queue

open Verif.Py Verif.Queue.Spec

variable {K V S : Type} [DecidableEq K]

/-- Calls that do not remove items by key. -/
def Ordinary : Op K V → Prop
  | .popKey _ => False
  | .clear => False
  | _ => True

/-- Page size 0, nothing on the front page, something in the table. -/
structure Stuck (q : PQ K S) : Prop where
  zero : q.pageSize = 0
  front : q.front.list = []
  db : q.db ≠ []

theorem deleteIds_nil (t : Table K S) : Table.deleteIds t [] = t := by
  unfold Table.deleteIds
  rw [List.filter_eq_self]
  simp

theorem loadFront_zero {q : PQ K S} (h : q.pageSize = 0) : q.loadFront = q := by
  unfold PQ.loadFront
  obtain ⟨n, f, b, t⟩ := q
  cases h
  simp [PQ.pushRecs, deleteIds_nil]

theorem stuck_pop (c : Codec V S) {q : PQ K S} (h : Stuck q) : q.pop c = (.ok none, q) := by
  have h1 : ¬ q.front.size > 0 := by simp [Page.size, h.front]
  have h2 : q.db.length > 0 := List.length_pos_iff.2 h.db
  unfold PQ.pop
  rw [if_neg h1, if_pos h2, loadFront_zero h.zero]
  simp only [Page.popFront, h.front]

theorem insertAll_ne {t t' : Table K S} {rows : List (Rec K S)} (h : Table.insertAll t rows = .ok t') (ht : t ≠ []) : t' ≠ [] := by
  unfold Table.insertAll at h
  split at h
  · cases h; simp [ht]
  · cases h

theorem stuck_push (c : Codec V S) {q : PQ K S} (h : Stuck q) (v : V) (k : K) : Stuck (q.push c v k).2 := by
  unfold PQ.push
  split
  · exact h
  · rw [if_neg (by rw [h.zero]; omega)]
    split
    · exact ⟨h.zero, h.front, h.db⟩
    · unfold PQ.writeBack
      simp only
      cases hi : Table.insertAll q.db (PQ.mkRecs 1 (Table.maxId q.db + 1) q.backPage.list) with
      | error e => exact h
      | ok t => exact ⟨h.zero, h.front, insertAll_ne hi h.db⟩

theorem stuck_step (c : Codec V S) {q : PQ K S} (h : Stuck q) (op : Op K V) (ho : Ordinary op) :
    Stuck (step c q op).2 ∧ (op = .pop → (step c q op).1 = .val (.ok none)) := by
  cases op with
  | push v k => exact ⟨stuck_push c h v k, by intro e; cases e⟩
  | pop => simp only [step, stuck_pop c h]; exact ⟨h, fun _ => trivial⟩
  | inspect k => exact ⟨h, by intro e; cases e⟩
  | popKey k => exact ho.elim
  | firstKeys n => exact ⟨h, by intro e; cases e⟩
  | size => exact ⟨h, by intro e; cases e⟩
  | clear => exact ho.elim

theorem stuck_run (c : Codec V S) (ops : List (Op K V)) : ∀ q : PQ K S, Stuck q → (∀ op ∈ ops, Ordinary op) →
    Stuck (run c q ops).2 ∧ popped ops (run c q ops).1 = [] := by
  induction ops with
  | nil => intro q h _; exact ⟨h, rfl⟩
  | cons op ops ih =>
    intro q h ho
    obtain ⟨h1, h2⟩ := stuck_step c h op (ho op (by simp))
    obtain ⟨h3, h4⟩ := ih _ h1 (fun o ho' => ho o (by simp [ho']))
    refine ⟨h3, ?_⟩
    simp only [run]
    cases op with
    | pop => rw [h2 rfl]; simpa [popped] using h4
    | push v k => simpa [popped, step] using h4
    | inspect k => simpa [popped, step] using h4
    | popKey k => exact False.elim (ho (.popKey k) (by simp))
    | firstKeys n => simpa [popped, step] using h4
    | size => simpa [popped, step] using h4
    | clear => exact False.elim (ho .clear (by simp))

theorem stuck_two (c : Codec V S) (v v' : V) {k k' : K} (hk : k ≠ k') : Stuck (run c (PQ.open 0 ([] : Table K S)) [.push v k, .push v' k']).2 := by
  refine ⟨?_, ?_, ?_⟩ <;>
    simp [run, step, PQ.open, PQ.fresh, PQ.initFront, PQ.initBack, PQ.push, PQ.backPage, PQ.setBackPage, PQ.writeBack, Page.hasEntry, Page.empty, Page.push, Page.append, Page.size,
      Table.hasKey, Table.insertAll, PQ.mkRecs, Table.maxId, Dict.has, Dict.set, Dict.get?, hk]

theorem stuck_open (t : Table K S) (ht : t ≠ []) : Stuck (PQ.open 0 t) := by
  have h0 : (PQ.fresh 0 t).db.length > 0 := List.length_pos_iff.2 ht
  have h1 : (PQ.fresh 0 t).initFront = PQ.fresh 0 t := by
    unfold PQ.initFront; rw [if_pos h0]; exact loadFront_zero rfl
  unfold PQ.open
  rw [h1]
  unfold PQ.initBack
  rw [if_pos h0]
  refine ⟨rfl, rfl, ?_⟩
  simp only [PQ.loadBack, PQ.fresh, List.take_zero, List.map_nil, deleteIds_nil, PQ.setBackPage]
  exact ht

theorem Stuck.size {q : PQ K S} (h : Stuck q) : 0 < q.size := by
  have := List.length_pos_iff.2 h.db
  unfold PQ.size
  split <;> omega

/-- **C11 is false of the code for page size 0, for good.** As soon as a new queue has taken two items, or when a queue is opened on a file that holds any, no `pop` returns an item any more, whatever
else is called, other than removing items by their keys or clearing the queue; and the queue is never empty. -/
theorem C11_forever_refuted (c : Codec V S) (ops : List (Op K V)) (ho : ∀ op ∈ ops, Ordinary op) :
    (∀ v v' k k', k ≠ k' → popped ops (run c (run c (PQ.open 0 ([] : Table K S)) [.push v k, .push v' k']).2 ops).1 = [] ∧
      0 < (run c (run c (PQ.open 0 ([] : Table K S)) [.push v k, .push v' k']).2 ops).2.size) ∧
    ∀ t : Table K S, t ≠ [] → popped ops (run c (PQ.open 0 t) ops).1 = [] ∧ 0 < (run c (PQ.open 0 t) ops).2.size := by
  refine ⟨?_, ?_⟩
  · intro v v' k k' hk
    obtain ⟨h1, h2⟩ := stuck_run c ops _ (stuck_two c v v' hk) ho
    exact ⟨h2, h1.size⟩
  · intro t ht
    obtain ⟨h1, h2⟩ := stuck_run c ops _ (stuck_open t ht) ho
    exact ⟨h2, h1.size⟩

/-- With one item at a time the queue works. -/
example : popped [.push 10 1, .pop, .push 20 2, .pop] (run idCodec (PQ.open 0 []) [.push 10 1, .pop, .push 20 2, .pop]).1 = [10, 20] := by decide

example : ∀ op ∈ ([.pop, .push 30 3, .pop, .size] : List (Op Nat Nat)), Ordinary op := by simp [Ordinary]

end Verif.Queue
