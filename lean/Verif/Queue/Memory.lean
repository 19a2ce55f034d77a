import Mathlib.Data.List.Induction
import Mathlib.Tactic.Ring
import Verif.Queue.Props

/-!
# C104: what a queue keeps in memory and what it keeps in its file

`documentation/buffereds/technical_stuff.md` ("Both pages exist purely in RAM", "When the back page becomes larger than the
number of entries you specify, it is written to the database file. When the front page has 0 entries in it, the first page_size
records in the database, are LOADED and DELETED from the database. If there is nothing in the database, then the front, and
back page, become the same thing.") and `documentation/buffereds/understanding_queues.md` ("your queue databases aren't written
to disk, until the application shuts down", "a pending queue size of 5000 means that your front page has 1000 entries, the back
page has 1000 entries, and the other 3000 entries, are sitting in the database file").
-/

set_option linter.unusedSectionVars false

namespace Verif.Queue

open Verif.Py Verif.Queue.Spec

variable {K V S : Type} [DecidableEq K]

/-- Number of entries in the lists of the pages of a queue; one page when both are one object. -/
def inMemory (q : PQ K S) : Nat :=
  match q.back with
  | none => q.front.list.length
  | some b => q.front.list.length + b.list.length

/-- The same for the dictionaries of the pages. -/
def inDicts (q : PQ K S) : Nat :=
  match q.back with
  | none => q.front.dict.length
  | some b => q.front.dict.length + b.dict.length

/-- **C104.** However many messages a queue holds, at most two pages of them are in memory, and all others are rows of the
file. -/
theorem C104_memory {c : Codec V S} (hc : c.Lawful) {q : PQ K S} (h : Reach c q) {l : Fifo K V} (hl : Holds c q l) :
    inMemory q ≤ 2 * q.pageSize ∧ inDicts q = inMemory q ∧ inMemory q + q.db.length = l.length := by
  have hr := reach_holds_rep hc h hl
  have hs : q.size = l.length := by rw [size_eq, hr.2, List.length_map]
  have hf := hr.1.frontSize
  have hfd : q.front.dict.length = q.front.list.length := by rw [hr.1.frontOk.1]; simp
  unfold PQ.size at hs
  unfold inMemory inDicts
  unfold Page.size at hf hs
  cases hb : q.back with
  | none =>
    rw [hb] at hs
    simp only at hs ⊢
    refine ⟨by omega, hfd, by omega⟩
  | some b =>
    have h1 := hr.1.backSize b hb
    have h2 : b.dict.length = b.list.length := by rw [(hr.1.backOk b hb).1]; simp
    rw [hb] at hs
    unfold Page.size at h1
    simp only at hs ⊢
    refine ⟨by omega, by omega, by omega⟩

example : Reach idCodec sixQ ∧ inMemory sixQ = 4 ∧ sixQ.db.length = 2 := ⟨sixQ_reach, by decide, by decide⟩

/-! ### when the file is written and read -/

/-- What a push of a key that is not held does. -/
theorem push_new {c : Codec V S} {q : PQ K S} {l : Fifo K V} (h : Rep c q l) (v : V) {k : K} (hk : k ∉ keys l) :
    (q.backPage.size < q.pageSize → (q.push c v k).2 = q.setBackPage (q.backPage.push c v k)) ∧
    (q.pageSize ≤ q.backPage.size → q.back = none →
      (q.push c v k).2 = { q with back := some ((Page.empty : Page K S).push c v k) }) ∧
    (∀ b, q.pageSize ≤ q.backPage.size → q.back = some b → ∃ t, t.length = q.db.length + b.size ∧
      (q.push c v k).2 = { q with db := t, back := some ((Page.empty : Page K S).push c v k) }) := by
  have hkeys : (items q).map Prod.fst = Spec.keys l := by rw [h.2]; exact encItem_fst c l
  have hheld := held_iff h.1 k
  rw [hkeys] at hheld
  have hcond : ¬ (q.backPage.hasEntry k || q.front.hasEntry k || Table.hasKey q.db k) = true := by
    rw [hheld]; exact hk
  have hp := (rep_push h v k).1
  refine ⟨fun hs => ?_, fun hs hb => ?_, fun b hs hb => ?_⟩
  · unfold PQ.push; rw [if_neg hcond, if_pos hs]
  · unfold PQ.push; rw [if_neg hcond, if_neg (by omega)]; simp only [hb]
  · unfold PQ.push at hp ⊢
    rw [if_neg hcond, if_neg (by omega)] at hp ⊢
    simp only [hb] at hp ⊢
    have hbp : q.backPage = b := by simp [PQ.backPage, hb]
    unfold PQ.writeBack at hp ⊢
    simp only [hbp] at hp ⊢
    cases ht : Table.insertAll q.db (PQ.mkRecs 1 (Table.maxId q.db + 1) b.list) with
    | error e => rw [ht] at hp; cases hp
    | ok t =>
      simp only
      refine ⟨t, ?_, rfl⟩
      unfold Table.insertAll at ht
      split at ht
      · cases ht
        have : ∀ (i : Int) (es : List (Entry K S)), (PQ.mkRecs 1 i es).length = es.length := by
          intro i es
          induction es generalizing i with
          | nil => rfl
          | cons e es ih => simp [PQ.mkRecs, ih]
        simp [this, Page.size]
      · cases ht

/-- **C104, when the file is written.** A push leaves the file as it is when the key is held already, when the back page is not
full, and when both pages are one object. Otherwise the page_size messages of the back page become rows of the file, and the
message pushed is the only one of the back page. -/
theorem C104_push {c : Codec V S} (hc : c.Lawful) {q : PQ K S} (h : Reach c q) {l : Fifo K V} (hl : Holds c q l) (v : V) (k : K) :
    (k ∈ keys l → (step c q (.push v k)).2 = q) ∧
    (q.back = none → (step c q (.push v k)).2.db = q.db) ∧
    (∀ b, q.back = some b → b.list.length < q.pageSize → (step c q (.push v k)).2.db = q.db) ∧
    (∀ b, q.back = some b → ¬ b.list.length < q.pageSize → k ∉ keys l →
      (step c q (.push v k)).2.db.length = q.db.length + q.pageSize ∧
      ∃ b', (step c q (.push v k)).2.back = some b' ∧ b'.list = [⟨k, c.enc v⟩]) := by
  have hr := reach_holds_rep hc h hl
  have held : k ∈ keys l → (step c q (.push v k)).2 = q := by
    intro hk
    have hkeys : (items q).map Prod.fst = Spec.keys l := by rw [hr.2]; exact encItem_fst c l
    have hheld := held_iff hr.1 k
    rw [hkeys] at hheld
    show (q.push c v k).2 = q
    unfold PQ.push
    rw [if_pos (hheld.mpr hk)]
  refine ⟨held, fun hb => ?_, fun b hb hs => ?_, fun b hb hs hk => ?_⟩
  · by_cases hk : k ∈ keys l
    · rw [held hk]
    · show (q.push c v k).2.db = q.db
      by_cases hs : q.backPage.size < q.pageSize
      · rw [(push_new hr v hk).1 hs]; simp [PQ.setBackPage, hb]
      · rw [(push_new hr v hk).2.1 (by omega) hb]
  · by_cases hk : k ∈ keys l
    · rw [held hk]
    · show (q.push c v k).2.db = q.db
      have hbp : q.backPage = b := by simp [PQ.backPage, hb]
      rw [(push_new hr v hk).1 (by rw [hbp]; exact hs)]; simp [PQ.setBackPage, hb]
  · have hbp : q.backPage = b := by simp [PQ.backPage, hb]
    obtain ⟨t, ht, e⟩ := (push_new hr v hk).2.2 b (by rw [hbp]; unfold Page.size; omega) hb
    have := hr.1.backSize b hb
    unfold Page.size at this ht
    refine ⟨?_, (Page.empty : Page K S).push c v k, ?_, rfl⟩
    · show (q.push c v k).2.db.length = _
      rw [e]; simp only [ht]; omega
    · show (q.push c v k).2.back = _
      rw [e]

example : Reach idCodec sixQ ∧ (∃ b, sixQ.back = some b ∧ ¬ b.list.length < sixQ.pageSize) ∧
    (step idCodec sixQ (.push 70 7)).2.db.length = 4 := ⟨sixQ_reach, ⟨_, rfl, by decide⟩, by decide⟩

theorem deleteIds_take {t : Table K S} (hn : (t.map Rec.id).Nodup) (n : Nat) :
    (Table.deleteIds t (((Table.asc t).take n).map Rec.id)).Perm ((Table.asc t).drop n) :=
  (asc_perm _).symm.trans (by rw [asc_delete_take hn])

/-- **C104, when the file is read.** A pop leaves the file as it is while the front page is not empty. When it is empty, the
first page_size rows (or all, when there are fewer) are loaded and deleted; when there are none, front and back page become the
same object. -/
theorem C104_pop {c : Codec V S} (hc : c.Lawful) {q : PQ K S} (h : Reach c q) :
    (q.front.list ≠ [] → (step c q .pop).2.db = q.db ∧ (step c q .pop).2.back = q.back) ∧
    (q.front.list = [] → q.db ≠ [] →
      (step c q .pop).2.db.length = q.db.length - q.pageSize ∧
      (step c q .pop).2.front.list.length + 1 = min q.pageSize q.db.length ∧
      (∀ r ∈ (step c q .pop).2.db, r ∈ q.db ∧ ∀ r' ∈ q.db, r' ∉ (step c q .pop).2.db → r'.id < r.id)) ∧
    (q.front.list = [] → q.db = [] → (step c q .pop).2.back = none ∧ (step c q .pop).2.db = []) := by
  obtain ⟨l, hr⟩ := reach_rep hc h
  refine ⟨fun hf => ?_, fun hf hd => ?_, fun hf hd => ?_⟩
  · have : q.front.size > 0 := List.length_pos_of_ne_nil hf
    simp only [step, PQ.pop, if_pos this, and_self]
  · have h0 : ¬ q.front.size > 0 := by unfold Page.size; rw [hf]; simp
    have h1 : q.db.length > 0 := List.length_pos_of_ne_nil hd
    have hst := rep_step hc hr .pop
    obtain ⟨l', ha, hr'⟩ := hst
    have hl' : l' = l.tail := ha.2
    have hsz : q.size = l.length := by rw [size_eq, hr.2, List.length_map]
    have hsz' : (step c q .pop).2.size = l.length - 1 := by rw [size_eq, hr'.2, List.length_map, hl', List.length_tail]
    have e : (step c q .pop).2.db = Table.deleteIds q.db (((Table.asc q.db).take q.pageSize).map Rec.id) ∧
        (step c q .pop).2.back = q.back := by
      simp only [step, PQ.pop, if_neg h0, if_pos h1, PQ.loadFront, and_self]
    obtain ⟨e, eb⟩ := e
    have hlen : (Table.deleteIds q.db (((Table.asc q.db).take q.pageSize).map Rec.id)).length = q.db.length - q.pageSize := by
      have := (deleteIds_take hr.1.ids q.pageSize).length_eq
      rw [this, List.length_drop, length_asc]
    rw [e, hlen]
    refine ⟨rfl, ?_, ?_⟩
    · have hb : q.back ≠ none := fun hb => hd (hr.1.shared hb)
      obtain ⟨b, hb⟩ := Option.ne_none_iff_exists'.mp hb
      have hpos := hr.1.pos
      unfold PQ.size at hsz hsz'
      rw [eb, hb, e, hlen] at hsz'
      rw [hb] at hsz
      simp only [Page.size, hf, List.length_nil] at hsz hsz'
      omega
    · intro r hm
      have hp := deleteIds_take hr.1.ids q.pageSize
      refine ⟨(List.mem_filter.mp hm).1, fun r' hr' hn => ?_⟩
      have hd' : r ∈ (Table.asc q.db).drop q.pageSize := hp.mem_iff.mp hm
      have ha' : r' ∈ Table.asc q.db := (asc_perm q.db).mem_iff.mpr hr'
      have ht' : r' ∈ (Table.asc q.db).take q.pageSize := by
        rw [← List.take_append_drop q.pageSize (Table.asc q.db), List.mem_append] at ha'
        rcases ha' with ha' | ha'
        · exact ha'
        · exact absurd (hp.mem_iff.mpr ha') hn
      have hsorted := asc_sorted q.db
      rw [← List.take_append_drop q.pageSize (Table.asc q.db), List.pairwise_append] at hsorted
      have hle := hsorted.2.2 _ ht' _ hd'
      rcases Int.lt_or_eq_of_le hle with hlt | heq
      · exact hlt
      · have := id_inj hr.1.ids hr' (List.mem_filter.mp hm).1 heq
        subst this; exact absurd hm hn
  · have h0 : ¬ q.front.size > 0 := by unfold Page.size; rw [hf]; simp
    have h1 : ¬ q.db.length > 0 := by rw [hd]; simp
    simp only [step, PQ.pop, if_neg h0, if_neg h1]
    split <;> exact ⟨rfl, hd⟩

example : Reach idCodec (run idCodec sixQ [.pop, .pop]).2 ∧ (run idCodec sixQ [.pop, .pop]).2.front.list = [] ∧
    (run idCodec sixQ [.pop, .pop]).2.db ≠ [] ∧ (step idCodec (run idCodec sixQ [.pop, .pop]).2 .pop).2.db = [] :=
  ⟨⟨[], 2, six ++ [.pop, .pop], .new, by decide, by decide⟩, by decide, by decide, by decide⟩

/-- **C104, the other calls.** Looking and counting change nothing at all; taking a message out by its key takes away no row
but its own, and clearing takes away all. -/
theorem C104_others {c : Codec V S} (hc : c.Lawful) {q : PQ K S} (h : Reach c q) :
    (∀ k, (step c q (.inspect k)).2 = q) ∧ (∀ n, (step c q (.firstKeys n)).2 = q) ∧ (step c q .size).2 = q ∧
    (∀ k r, r ∈ (step c q (.popKey k)).2.db ↔ r ∈ q.db ∧ r.key ≠ k) ∧
    ((step c q .clear).2.db = [] ∧ inMemory (step c q .clear).2 = 0) := by
  obtain ⟨l, hr⟩ := reach_rep hc h
  refine ⟨fun _ => rfl, fun _ => rfl, rfl, fun k r => ?_, ?_, rfl⟩
  · -- where a key is held in a page, no row has it
    have hkn := hr.1.keys
    rw [items_keys] at hkn
    have page : ∀ x : K, (x ∈ q.front.list.map Entry.key ∨ ∃ b, q.back = some b ∧ x ∈ b.list.map Entry.key) →
        ∀ r ∈ q.db, r.key ≠ x := by
      intro x hx r hr' e
      have hrk : r.key ∈ (Table.asc q.db).map Rec.key :=
        List.mem_map.mpr ⟨r, (asc_perm q.db).mem_iff.mpr hr', rfl⟩
      rcases hx with hx | ⟨b, hb, hx⟩
      · exact (List.nodup_append.mp (List.nodup_append.mp hkn).1).2.2 x hx r.key hrk e.symm
      · rw [backItems_some hb, eItem_fst] at hkn
        exact (List.nodup_append.mp hkn).2.2 r.key (List.mem_append.mpr (Or.inr hrk)) x hx e
    show r ∈ (q.popKey c k).2.db ↔ _
    unfold PQ.popKey
    by_cases h1 : q.front.hasEntry k
    · rw [if_pos h1]
      have := page k (Or.inl ((hr.1.frontOk.has k).mp h1))
      exact ⟨fun hm => ⟨hm, this r hm⟩, fun hm => hm.1⟩
    · rw [if_neg h1]
      by_cases h2 : q.backPage.hasEntry k
      · rw [if_pos h2]
        have hdb : (q.setBackPage (q.backPage.popEntry c k).2).db = q.db := by
          unfold PQ.setBackPage; split <;> rfl
        simp only [hdb]
        cases hb : q.back with
        | none => rw [hr.1.shared hb]; simp
        | some b =>
          have hbp : q.backPage = b := by simp [PQ.backPage, hb]
          rw [hbp] at h2
          have := page k (Or.inr ⟨b, hb, ((hr.1.backOk b hb).has k).mp h2⟩)
          exact ⟨fun hm => ⟨hm, this r hm⟩, fun hm => hm.1⟩
      · rw [if_neg h2]
        cases hf : Table.find? q.db k with
        | none =>
          unfold Table.find? at hf
          rw [List.find?_eq_none] at hf
          exact ⟨fun hm => ⟨hm, by simpa using hf r hm⟩, fun hm => hm.1⟩
        | some r₀ =>
          have hk0 : r₀.key = k := by
            have := List.find?_some hf; simpa using this
          have hm0 : r₀ ∈ q.db := List.mem_of_find?_eq_some hf
          have hdk : ((Table.asc q.db).map Rec.key).Nodup := (List.nodup_append.mp (List.nodup_append.mp hkn).1).2.1
          have hdk' : (q.db.map Rec.key).Nodup := (((asc_perm q.db).map Rec.key).nodup_iff).mp hdk
          simp only [Table.deleteIds, List.mem_filter, List.mem_singleton, decide_eq_true_eq]
          constructor
          · rintro ⟨hm, hne⟩
            refine ⟨hm, fun e => hne ?_⟩
            rw [List.inj_on_of_nodup_map hdk' hm hm0 (e.trans hk0.symm)]
          · rintro ⟨hm, hne⟩
            refine ⟨hm, fun e => hne ?_⟩
            rw [id_inj hr.1.ids hm hm0 e, hk0]
  · show (q.clear).db = []
    have := (rep_clear hr).2
    have hs := size_eq q.clear
    rw [this] at hs
    simp only [PQ.size, PQ.clear, List.map_nil, List.length_nil] at hs
    exact List.length_eq_zero_iff.mp (by unfold PQ.clear; simp only; omega)

example : Reach idCodec sixQ ∧ (sixQ.db.map Rec.key) = [3, 4] ∧ ((step idCodec sixQ (.popKey 3)).2.db.map Rec.key) = [4] ∧
    (step idCodec sixQ (.popKey 1)).2.db = sixQ.db := ⟨sixQ_reach, by decide, by decide, by decide⟩

/-! ### queues that never touch their file -/

/-- **C104, in memory only.** A new queue that never holds more than page_size messages writes nothing to its file until it is
shut down. -/
theorem C104_memory_only {c : Codec V S} (hc : c.Lawful) {p : Nat} (hp : 0 < p) (ops : List (Op K V))
    (hsize : ∀ n, (run c (PQ.open p ([] : Table K S)) (ops.take n)).2.size ≤ p) :
    ∀ n, (run c (PQ.open p ([] : Table K S)) (ops.take n)).2.db = [] := by
  suffices H : ∀ (ops : List (Op K V)) (q : PQ K S), Reach c q → q.pageSize = p → q.db = [] →
      (∀ n, (run c q (ops.take n)).2.size ≤ p) → ∀ n, (run c q (ops.take n)).2.db = [] from
    H ops _ ⟨[], p, [], .new, hp, rfl⟩ rfl rfl hsize
  intro ops
  induction ops with
  | nil => intro q _ _ hd _ n; simp only [List.take_nil]; exact hd
  | cons op ops ih =>
    intro q hq hps hd hs n
    cases n with
    | zero => exact hd
    | succ n =>
      have hq' : Reach c (step c q op).2 := by
        obtain ⟨t, p', os, h1, h2, e⟩ := hq
        refine ⟨t, p', os ++ [op], h1, h2, ?_⟩
        rw [e]
        have : ∀ (os : List (Op K V)) (q : PQ K S), (run c q (os ++ [op])).2 = (step c (run c q os).2 op).2 := by
          intro os
          induction os with
          | nil => intro q; rfl
          | cons o os ih => intro q; exact ih _
        rw [this]
      have hps' : (step c q op).2.pageSize = p := by rw [← hps]; exact run_pageSize c [op] q
      refine ih (step c q op).2 hq' hps' ?_ (fun m => hs (m + 1)) n
      obtain ⟨l, hl, _⟩ := C01_content hc hq
      have hr := reach_holds_rep hc hq hl
      cases op with
      | push v k =>
        obtain ⟨h1, h2, h3, h4⟩ := C104_push hc hq hl v k
        by_cases hk : k ∈ keys l
        · rw [h1 hk]; exact hd
        · cases hb : q.back with
          | none => rw [h2 hb]; exact hd
          | some b =>
            by_cases hf : b.list.length < q.pageSize
            · rw [h3 b hb hf]; exact hd
            · have h5 := hs 1
              simp only [List.take_succ_cons, List.take_zero, run] at h5
              have h6 := (rep_push hr v k).2
              have h7 : (step c q (.push v k)).2.size = l.length + 1 := by
                rw [size_eq]; show (items (q.push c v k).2).length = _
                rw [h6.2, Spec.push, if_neg hk]; simp
              have h8 : q.size = l.length := by rw [size_eq, hr.2, List.length_map]
              unfold PQ.size at h8
              rw [hb, hd] at h8
              simp only [Page.size, List.length_nil] at h8
              omega
      | pop =>
        obtain ⟨h1, _, h3⟩ := C104_pop hc hq
        by_cases hf : q.front.list = []
        · exact (h3 hf hd).2
        · rw [(h1 hf).1]; exact hd
      | popKey k =>
        have := (C104_others hc hq).2.2.2.1 k
        rw [hd] at this
        exact List.eq_nil_iff_forall_not_mem.mpr (fun r hm => by have := (this r).mp hm; simp at this)
      | clear => exact (C104_others hc hq).2.2.2.2.1
      | _ => exact hd

example : (∀ n, (run idCodec (PQ.open 3 [])
      (([.push 10 1, .push 20 2, .push 30 3, .pop, .push 40 4] : List (Op Nat Nat)).take n)).2.size ≤ 3) ∧
    (run idCodec (PQ.open 3 []) ([.push 10 1, .push 20 2, .push 30 3, .pop, .push 40 4] : List (Op Nat Nat))).2.size = 3 := by
  refine ⟨fun n => ?_, by decide⟩
  match n with
  | 0 | 1 | 2 | 3 | 4 => decide
  | n + 5 => rw [List.take_of_length_le (by simp)]; decide

/-- **C104, refuted.** Room for two pages is not enough: a queue with pages of two that never holds more than three messages has
written two of them to its file. -/
theorem C104_memory_only_refuted :
    ∃ ops : List (Op Nat Nat), (∀ n, (run idCodec (PQ.open 2 []) (ops.take n)).2.size ≤ 3) ∧
      (run idCodec (PQ.open 2 []) ops).2.db.length = 2 := by
  refine ⟨[.push 10 1, .push 20 2, .push 30 3, .popKey 1, .push 40 4, .popKey 2, .push 50 5], fun n => ?_, by decide⟩
  match n with
  | 0 | 1 | 2 | 3 | 4 | 5 | 6 => decide
  | n + 7 => rw [List.take_of_length_le (by simp)]; decide

/-! ### where the messages are -/

theorem run_snoc (c : Codec V S) (op : Op K V) (os : List (Op K V)) : ∀ q : PQ K S,
    (run c q (os ++ [op])).2 = (step c (run c q os).2 op).2 := by
  induction os with
  | nil => intro q; rfl
  | cons o os ih => intro q; exact ih _

/-- The calls pushing these messages. -/
def pushes (kvs : List (K × V)) : List (Op K V) := kvs.map (fun e => .push e.2 e.1)

theorem pushes_rep {c : Codec V S} {p : Nat} (hp : 0 < p) (kvs : List (K × V)) (hn : (kvs.map Prod.fst).Nodup) :
    Rep c (run c (PQ.open p ([] : Table K S)) (pushes kvs)).2 kvs := by
  induction kvs using List.reverseRecOn with
  | nil => exact rep_fresh hp
  | append_singleton kvs e ih =>
    rw [List.map_append, List.nodup_append] at hn
    have h := ih hn.1
    have hk : e.1 ∉ keys kvs := fun hm => hn.2.2 e.1 hm e.1 (by simp) rfl
    have := (rep_push h e.2 e.1).2
    rw [Spec.push, if_neg hk] at this
    simp only [pushes, List.map_append, List.map_cons, List.map_nil]
    rw [run_snoc]
    exact this

/-- **C104, where the messages are.** After pushing any number of messages with different keys to a new queue, up to page_size
are in the one page; of more, the first page_size are in the front page, the file holds whole pages, and the back page what is
left: at least one message and at most page_size. -/
theorem C104_layout {c : Codec V S} {p : Nat} (hp : 0 < p) (kvs : List (K × V)) (hn : (kvs.map Prod.fst).Nodup)
    {q : PQ K S} (hq : q = (run c (PQ.open p ([] : Table K S)) (pushes kvs)).2) :
    (kvs.length ≤ p → q.back = none ∧ q.front.list.length = kvs.length ∧ q.db = []) ∧
    (p < kvs.length → q.front.list.length = p ∧ q.db.length = (kvs.length - p - 1) / p * p ∧
      ∃ b, q.back = some b ∧ b.list.length = (kvs.length - p - 1) % p + 1) := by
  subst hq
  induction kvs using List.reverseRecOn with
  | nil => exact ⟨fun _ => ⟨rfl, rfl, rfl⟩, fun h => absurd h (by simp)⟩
  | append_singleton kvs e ih =>
    rw [List.map_append, List.nodup_append] at hn
    have hk : e.1 ∉ keys kvs := fun hm => hn.2.2 e.1 hm e.1 (by simp) rfl
    have hr := pushes_rep (c := c) (S := S) hp kvs hn.1
    obtain ⟨h1, h2⟩ := ih hn.1
    have hps : (run c (PQ.open p ([] : Table K S)) (pushes kvs)).2.pageSize = p := run_pageSize c _ _
    have hstep : (run c (PQ.open p ([] : Table K S)) (pushes (kvs ++ [e]))).2 =
        ((run c (PQ.open p ([] : Table K S)) (pushes kvs)).2.push c e.2 e.1).2 := by
      simp only [pushes, List.map_append, List.map_cons, List.map_nil]
      rw [run_snoc]; rfl
    rw [hstep]
    obtain ⟨n1, n2, n3⟩ := push_new hr e.2 hk
    generalize (run c (PQ.open p ([] : Table K S)) (pushes kvs)).2 = q at *
    simp only [List.length_append, List.length_cons, List.length_nil, Nat.zero_add]
    by_cases hle : kvs.length ≤ p
    · obtain ⟨hb, hf, hd⟩ := h1 hle
      have hbp : q.backPage = q.front := by simp [PQ.backPage, hb]
      by_cases hlt : kvs.length < p
      · have hs : q.backPage.size < q.pageSize := by rw [hbp, hps]; unfold Page.size; omega
        rw [n1 hs]
        refine ⟨fun _ => ?_, fun h => absurd h (by omega)⟩
        simp only [PQ.setBackPage, hb, hbp, Page.push, Page.append, List.length_append, List.length_cons, List.length_nil, hd,
          and_true, true_and]
        omega
      · have he : kvs.length = p := by omega
        rw [n2 (by rw [hbp, hps]; unfold Page.size; omega) hb]
        refine ⟨fun h => absurd h (by omega), fun _ => ⟨by simp only; omega, ?_, _, rfl, ?_⟩⟩
        · simp only [hd, he]; simp
        · simp [Page.push, Page.append, Page.empty, he]
    · obtain ⟨hf, hd, b, hb, hbl⟩ := h2 (by omega)
      have hbp : q.backPage = b := by simp [PQ.backPage, hb]
      refine ⟨fun h => absurd h (by omega), fun _ => ?_⟩
      obtain ⟨m, hm⟩ : ∃ m, kvs.length - p - 1 = m := ⟨_, rfl⟩
      have hm' : kvs.length + 1 - p - 1 = m + 1 := by omega
      rw [hm] at hd hbl
      rw [hm']
      have hmod : m % p < p := Nat.mod_lt _ hp
      have hdm := Nat.div_add_mod m p
      by_cases hfull : m % p + 1 < p
      · have e1 : (m + 1) % p = m % p + 1 := by
          rw [Nat.add_mod, Nat.mod_eq_of_lt (a := 1) (by omega), Nat.mod_eq_of_lt hfull]
        have e2 : (m + 1) / p = m / p := by
          have h3 := Nat.div_add_mod (m + 1) p
          rw [e1] at h3
          exact Nat.eq_of_mul_eq_mul_left hp (by omega)
        rw [n1 (by rw [hbp, hps]; unfold Page.size; omega), e1, e2]
        simp only [PQ.setBackPage, hb, hbp, hd, hf, true_and]
        exact ⟨_, rfl, by simp [Page.push, Page.append, hbl]⟩
      · have he : m % p + 1 = p := by omega
        have e0 : m + 1 = p * (m / p + 1) := by rw [Nat.mul_add]; omega
        have e1 : (m + 1) % p = 0 := by rw [e0]; exact Nat.mul_mod_right _ _
        have e2 : (m + 1) / p = m / p + 1 := by rw [e0]; exact Nat.mul_div_cancel_left _ hp
        obtain ⟨t, ht, hq'⟩ := n3 b (by rw [hbp, hps]; unfold Page.size; omega) hb
        rw [hq', e1, e2]
        unfold Page.size at ht
        refine ⟨hf, ?_, _, rfl, by simp [Page.push, Page.append, Page.empty]⟩
        simp only [ht, hd, hbl, he, Nat.add_mul, Nat.one_mul]

/-- **C104, the example of the documentation**, for any page size and any number of pages above one: front and back page are
full, all others are in the file. -/
theorem C104_full_pages {c : Codec V S} {p m : Nat} (hp : 0 < p) (kvs : List (K × V)) (hn : (kvs.map Prod.fst).Nodup)
    (hlen : kvs.length = (m + 2) * p) {q : PQ K S} (hq : q = (run c (PQ.open p ([] : Table K S)) (pushes kvs)).2) :
    q.front.list.length = p ∧ (∃ b, q.back = some b ∧ b.list.length = p) ∧ q.db.length = m * p := by
  have hk : kvs.length = m * p + p + p := by rw [hlen]; ring
  obtain ⟨_, h⟩ := C104_layout (c := c) hp kvs hn hq
  obtain ⟨h1, h2, b, hb, h3⟩ := h (by omega)
  obtain ⟨j, hj⟩ : ∃ j, p = j + 1 := ⟨p - 1, by omega⟩
  have e : kvs.length - p - 1 = j + p * m := by rw [hk, Nat.mul_comm p m]; omega
  rw [e, Nat.add_mul_div_left _ _ hp, Nat.div_eq_of_lt (by omega)] at h2
  rw [e, Nat.add_mul_mod_self_left, Nat.mod_eq_of_lt (by omega)] at h3
  exact ⟨h1, ⟨b, hb, by omega⟩, by simpa using h2⟩

example : ((List.range 10).map (fun i => (i, i))).length = (3 + 2) * 2 ∧
    (((List.range 10).map (fun i => (i, i))).map Prod.fst).Nodup ∧
    (run idCodec (PQ.open 2 []) (pushes ((List.range 10).map (fun i => (i, i))))).2.db.length = 6 := by decide

/-- **C10**, exactly: as many of the first keys are listed as asked for and as the front page has, no more and no fewer. -/
theorem C10_listed_partial {c : Codec V S} (hc : c.Lawful) {q : PQ K S} (h : Reach c q) {l : Fifo K V} (hl : Holds c q l)
    (n : Int) : q.firstKeys n = (keys l).take (min n.toNat q.front.list.length) := by
  rw [firstKeys_prefix (reach_holds_rep hc h hl), List.take_take, Nat.min_comm]; rfl

/-- **C10**, part that holds: after pushing messages with different keys to a new queue, up to a page of first keys is listed in
full. -/
theorem C10_pushed_partial {c : Codec V S} {p : Nat} (hp : 0 < p) (kvs : List (K × V)) (hn : (kvs.map Prod.fst).Nodup)
    (n : Int) (hle : n ≤ p) :
    (run c (PQ.open p ([] : Table K S)) (pushes kvs)).2.firstKeys n = (kvs.map Prod.fst).take n.toNat := by
  rw [firstKeys_prefix (pushes_rep (c := c) (S := S) hp kvs hn), List.take_take]
  obtain ⟨h1, h2⟩ := C104_layout (c := c) (S := S) hp kvs hn rfl
  unfold Page.size
  by_cases hk : kvs.length ≤ p
  · rw [(h1 hk).2.1]
    by_cases hm : n.toNat ≤ kvs.length
    · rw [Nat.min_eq_right hm]; rfl
    · rw [List.take_of_length_le (by simp [Spec.keys]; omega), List.take_of_length_le (by simp; omega)]; rfl
  · rw [(h2 (by omega)).1, Nat.min_eq_right (by omega)]; rfl

example : (run idCodec (PQ.open 2 []) (pushes [(1, 10), (2, 20), (3, 30)])).2.firstKeys 2 = [1, 2] ∧
    sixQ.firstKeys 5 = [1, 2] ∧ sixQ.front.list.length = 2 := by decide

/-- **C104, after a restart.** A queue opened on a file with any number of messages has the first page_size in its front page,
up to page_size in its back page, and the others in the file. -/
theorem C104_open {c : Codec V S} (hc : c.Lawful) {t : Table K S} (h : OnDisk c t) {p : Nat} (hp : 0 < p) :
    (PQ.open p t).front.list.length = min t.length p ∧
    (t.length ≤ p → (PQ.open p t).back = none ∧ (PQ.open p t).db = []) ∧
    (p < t.length → (∃ b, (PQ.open p t).back = some b ∧ b.list.length = min (t.length - p) p) ∧
      (PQ.open p t).db.length = t.length - 2 * p) := by
  obtain ⟨l, hs⟩ := onDisk_stores hc h
  obtain ⟨hr, _, hs1, hs2⟩ := rep_open hs hp
  obtain ⟨_, hbk, _⟩ := initFront_spec p hs.ids hs.keys
  have hf := open_front_size p hs
  have hlen : t.length = l.length := by
    have := congrArg List.length hs.content
    simpa [length_asc] using this
  have hsz : (PQ.open p t).size = t.length := by
    rw [size_eq, hr.2, List.length_map, (reopened_perm p l).length_eq, hlen]
  have hdb : (PQ.open p t).db.length = t.length - 2 * p := by
    have := congrArg List.length hs2.content
    simp only [List.length_map, length_asc, List.length_take, List.length_drop] at this
    omega
  have hdb1 : (PQ.fresh p t).initFront.db.length = t.length - p := by
    have := congrArg List.length hs1.content
    simp only [List.length_map, length_asc, List.length_drop] at this
    omega
  unfold Page.size at hf
  refine ⟨by rw [hf, hlen, Nat.min_comm], fun hle => ?_, fun hlt => ⟨?_, hdb⟩⟩
  · have ho : PQ.open p t = (PQ.fresh p t).initFront := by
      unfold PQ.open PQ.initBack; exact if_neg (by omega)
    refine ⟨by rw [ho]; exact hbk, List.length_eq_zero_iff.mp (by omega)⟩
  · unfold PQ.size at hsz
    cases hb : (PQ.open p t).back with
    | none =>
      have := hr.1.shared hb
      rw [hb] at hsz
      simp only [this, List.length_nil, Page.size] at hsz
      omega
    | some b =>
      rw [hb] at hsz
      simp only [Page.size] at hsz
      exact ⟨b, rfl, by omega⟩

example : OnDisk idCodec sixQ.shutDown.2.db ∧ sixQ.shutDown.2.db.length = 6 ∧ (PQ.open 2 sixQ.shutDown.2.db).db.length = 2 :=
  ⟨.stopping (p := 2) (ops := six) .new (by decide) (by simp [PQ.shutDownStates, sixQ]), by decide, by decide⟩

/-- **C104, refuted.** The number of messages alone does not tell where they are: a queue with pages of two that holds ten
messages has only one of them in its front page and one in its back page. -/
theorem C104_layout_refuted :
    ∃ q : PQ Nat Nat, Reach idCodec q ∧ q.pageSize = 2 ∧ q.size = 10 ∧ q.front.list.length = 1 ∧
      q.db.length = 8 ∧ ∃ b, q.back = some b ∧ b.list.length = 1 :=
  ⟨(run idCodec (PQ.open 2 []) (pushes ((List.range 11).map (fun i => (i, i))) ++ [.pop])).2,
    ⟨[], 2, _, .new, by decide, rfl⟩, by decide, by decide, by decide, by decide, _, rfl, by decide⟩

end Verif.Queue
