import Verif.Queue.Reach

/-!
# Properties C01 to C12 of the persistent queue

Every theorem speaks about `Reach`able queues (any file that opens, calls, shut-downs and crashes can
leave behind, opened with any page size above zero) and about what they `Holds`, which is defined by
the answers to public calls.
-/

set_option linter.unusedSectionVars false

namespace Verif.Queue

open Verif.Py Verif.Queue.Spec

variable {K V S : Type} [DecidableEq K]

/-- The codec used in the examples: values are their own text. -/
def idCodec : Codec Nat Nat := ⟨id, some⟩

theorem idCodec_lawful : idCodec.Lawful := fun _ => rfl

/-- Four items pushed through pages of two: two in the front page, two in the back page. -/
def four : List (Op Nat Nat) := [.push 10 1, .push 20 2, .push 30 3, .push 40 4]

/-- Six items: two in the front page, two in the table, two in the back page. -/
def six : List (Op Nat Nat) := four ++ [.push 50 5, .push 60 6]

/-- An open queue with six items, in all three places. -/
def sixQ : PQ Nat Nat := (run idCodec (PQ.open 2 []) six).2

theorem sixQ_reach : Reach idCodec sixQ := ⟨[], 2, six, .new, by decide, rfl⟩

/-- **C01**, every reachable queue behaves as exactly one first-in first-out list. -/
theorem C01_content {c : Codec V S} (hc : c.Lawful) {q : PQ K S} (h : Reach c q) : ∃! l, Holds c q l := by
  obtain ⟨l, hl⟩ := reach_rep hc h
  exact ⟨l, rep_holds hc hl, fun l' h' => holds_unique h' (rep_holds hc hl)⟩

/-- What the example queue holds. -/
theorem sixQ_holds : Holds idCodec sixQ [(1, 10), (2, 20), (3, 30), (4, 40), (5, 50), (6, 60)] := by
  obtain ⟨l, hl⟩ := reach_rep idCodec_lawful sixQ_reach
  have : l = [(1, 10), (2, 20), (3, 30), (4, 40), (5, 50), (6, 60)] := by
    have h := hl.2
    have e : items sixQ = [(1, 10), (2, 20), (3, 30), (4, 40), (5, 50), (6, 60)] := by decide
    rw [e] at h
    rw [h]
    exact (List.map_id' l).symm
  rw [← this]; exact rep_holds idCodec_lawful hl

/-! ### C01 -/

/-- **C01.** A new queue answers every history of calls as a first-in first-out list does. -/
theorem C01_fifo {c : Codec V S} (hc : c.Lawful) {p : Nat} (hp : 0 < p) (ops : List (Op K V)) :
    Answers [] ops (run c (PQ.open p ([] : Table K S)) ops).1 :=
  (rep_run hc ops (rep_fresh hp)).1

example : 0 < 2 ∧ (run idCodec (PQ.open 2 []) (six ++ [.pop, .popKey 4, .pop, .pop])).2.size = 2 := by decide

/-- Answers of a history of pushes and pops with fresh keys. -/
theorem popped_prefix (ops : List (Op K V)) : ∀ (l : Fifo K V) (outs : List (Out K V)), PushPop ops →
    (keys (l ++ pushed ops)).Nodup → Answers l ops outs →
    popped ops outs <+: (l ++ pushed ops).map Prod.snd := by
  induction ops with
  | nil => intro l outs _ _ _; simp [popped]
  | cons op ops ih =>
    intro l outs hpp hn ha
    obtain ⟨o, outs, l', rfl, h1, h2⟩ := ha
    cases op with
    | push v k =>
      obtain ⟨rfl, rfl⟩ := h1
      have hk : k ∉ keys l := by
        simp only [pushed, keys, List.map_append, List.map_cons] at hn
        rw [List.nodup_append] at hn
        intro hk
        exact hn.2.2 k hk k (by simp) rfl
      have e : l ++ pushed (Op.push v k :: ops) = Spec.push l v k ++ pushed ops := by
        simp [pushed, Spec.push, if_neg hk]
      rw [e] at hn ⊢
      simp only [popped]
      exact ih _ outs hpp hn h2
    | pop =>
      obtain ⟨rfl, rfl⟩ := h1
      cases l with
      | nil => exact ih _ outs hpp hn h2
      | cons a l =>
        have hn' : (keys (l ++ pushed ops)).Nodup := by
          simp only [keys, pushed, List.cons_append, List.map_cons, List.nodup_cons] at hn
          exact hn.2
        have := ih l outs hpp hn' h2
        simp only [Spec.front, List.head?_cons, Option.map_some, popped, pushed, List.cons_append, List.map_cons]
        exact List.cons_prefix_cons.mpr ⟨rfl, this⟩
    | _ => exact absurd hpp (by simp [PushPop])

/-- **C01**, spelled out for pushes and pops: the values popped are the first values pushed, in
order. -/
theorem C01_pop_order {c : Codec V S} (hc : c.Lawful) {p : Nat} (hp : 0 < p) (ops : List (Op K V))
    (hpp : PushPop ops) (hn : (keys (pushed ops)).Nodup) :
    popped ops (run c (PQ.open p ([] : Table K S)) ops).1 <+: (pushed ops).map Prod.snd := by
  have := popped_prefix ops [] _ hpp (by simpa using hn) (C01_fifo (S := S) hc hp ops)
  simpa using this

example : PushPop (six ++ [.pop, .pop, .pop] : List (Op Nat Nat)) ∧ (keys (pushed (six ++ [.pop, .pop, .pop] : List (Op Nat Nat)))).Nodup ∧
    popped (six ++ [.pop, .pop, .pop]) (run idCodec (PQ.open 2 []) (six ++ [.pop, .pop, .pop])).1 = [10, 20, 30] := by
  refine ⟨by simp [six, four, PushPop], by decide, by decide⟩

theorem drain {c : Codec V S} {q : PQ K S} {l : Fifo K V} (hl : Holds c q l) :
    (run c q (List.replicate (l.length + 1) .pop)).1 = l.map (fun e => Out.val (.ok (some e.2))) ++ [.val (.ok none)] := by
  induction l generalizing q with
  | nil =>
    obtain ⟨l', h1, _⟩ := holds_next hl .pop
    have := h1.1
    simp only [List.length_nil, Nat.zero_add, List.replicate_one, run, this, Spec.front]
    rfl
  | cons a l ih =>
    obtain ⟨l', h1, _⟩ := holds_next hl .pop
    have h := h1.1
    have ht := ih hl.tail
    show (step c q .pop).1 :: (run c (step c q .pop).2 (List.replicate (l.length + 1) .pop)).1 = _
    rw [h]
    have e : (step c q .pop).2 = (q.pop c).2 := rfl
    rw [e]
    rw [ht]
    rfl

/-- **C01**, draining: every reachable queue holds a list whose values it gives back in order, then
nothing. -/
theorem C01_drain {c : Codec V S} (hc : c.Lawful) {q : PQ K S} (h : Reach c q) : ∃ l : Fifo K V, Holds c q l ∧
    (run c q (List.replicate (l.length + 1) .pop)).1 = l.map (fun e => Out.val (.ok (some e.2))) ++ [.val (.ok none)] := by
  obtain ⟨l, hl, _⟩ := C01_content hc h
  exact ⟨l, hl, drain hl⟩

example : Reach idCodec sixQ ∧ (run idCodec sixQ (List.replicate 7 .pop)).1.length = 7 := ⟨sixQ_reach, by decide⟩

/-! ### C02 -/

/-- **C02.** Pushing a key that the queue holds succeeds and leaves the queue as it was; pushing any
other key appends it. -/
theorem C02_push {c : Codec V S} (hc : c.Lawful) {q : PQ K S} (h : Reach c q) {l : Fifo K V} (hl : Holds c q l)
    (v : V) (k : K) : (q.push c v k).1 = .ok k ∧
      (k ∈ keys l → Holds c (q.push c v k).2 l) ∧ (k ∉ keys l → Holds c (q.push c v k).2 (l ++ [(k, v)])) := by
  obtain ⟨h1, h2⟩ := rep_push (reach_holds_rep hc h hl) v k
  refine ⟨h1, fun hk => ?_, fun hk => ?_⟩
  · rw [Spec.push, if_pos hk] at h2; exact rep_holds hc h2
  · rw [Spec.push, if_neg hk] at h2; exact rep_holds hc h2

/-- **C02**, at most one item per key. -/
theorem C02_unique_keys {c : Codec V S} (hc : c.Lawful) {q : PQ K S} (h : Reach c q) :
    ∃ l : Fifo K V, Holds c q l ∧ (keys l).Nodup := by
  obtain ⟨l, hl, _⟩ := C01_content hc h
  exact ⟨l, hl, hl.1⟩

example : Reach idCodec sixQ ∧ (sixQ.push idCodec 99 3).2.size = 6 ∧ (sixQ.push idCodec 99 7).2.size = 7 :=
  ⟨sixQ_reach, by decide, by decide⟩

/-! ### C03 -/

/-- **C03.** `size` counts the items and `is_empty` says whether there are none. -/
theorem C03_size {c : Codec V S} (hc : c.Lawful) {q : PQ K S} (h : Reach c q) {l : Fifo K V} (hl : Holds c q l) :
    q.size = l.length ∧ (q.isEmpty = true ↔ l = []) := by
  have hr := reach_holds_rep hc h hl
  have : q.size = l.length := by rw [size_eq, hr.2, List.length_map]
  exact ⟨this, by simp [PQ.isEmpty, this]⟩

example : Reach idCodec sixQ ∧ sixQ.size = 6 ∧ sixQ.isEmpty = false := ⟨sixQ_reach, by decide, by decide⟩

/-! ### C04 -/

/-- **C04.** Inspecting finds exactly the queued payload; afterwards the queue holds the same. -/
theorem C04_inspect {c : Codec V S} (hc : c.Lawful) {q : PQ K S} (h : Reach c q) : ∃ l : Fifo K V, Holds c q l ∧ ∀ k : K,
    (∀ v, q.inspect c k = .ok (some v) ↔ (k, v) ∈ l) ∧ (q.inspect c k = .ok none ↔ k ∉ keys l) ∧
      (∃ r, q.inspect c k = .ok r) ∧ Holds c (step c q (.inspect k)).2 l := by
  obtain ⟨l, hl, _⟩ := C01_content hc h
  refine ⟨l, hl, fun k => ?_⟩
  rw [holds_inspect hl k]
  refine ⟨fun v => ?_, ?_, ⟨_, rfl⟩, hl⟩
  · rw [Except.ok.injEq]; exact lookup_some_iff hl.1 k v
  · rw [Except.ok.injEq]; exact lookup_none_iff l k

example : Reach idCodec sixQ ∧ sixQ.inspect idCodec 4 = .ok (some 40) ∧ sixQ.inspect idCodec 9 = .ok none :=
  ⟨sixQ_reach, by rfl, by rfl⟩

/-! ### C05 -/

/-- **C05.** Popping a key returns what was queued under it and removes just that. -/
theorem C05_pop_key {c : Codec V S} (hc : c.Lawful) {q : PQ K S} (h : Reach c q) {l : Fifo K V} (hl : Holds c q l)
    (k : K) : (∀ v, (q.popKey c k).1 = .ok (some v) ↔ (k, v) ∈ l) ∧
      ((q.popKey c k).1 = .ok none ↔ k ∉ keys l) ∧ (∃ r, (q.popKey c k).1 = .ok r) ∧
      Holds c (q.popKey c k).2 (l.filter (fun e => e.1 ≠ k)) := by
  obtain ⟨h1, h2⟩ := rep_popKey hc (reach_holds_rep hc h hl) k
  rw [h1]
  refine ⟨fun v => ?_, ?_, ⟨_, rfl⟩, rep_holds hc h2⟩
  · rw [Except.ok.injEq]; exact lookup_some_iff hl.1 k v
  · rw [Except.ok.injEq]; exact lookup_none_iff l k

example : Reach idCodec sixQ ∧ (sixQ.popKey idCodec 4).1 = .ok (some 40) ∧
    (run idCodec (sixQ.popKey idCodec 4).2 [.inspect 4, .size]).2.size = 5 := ⟨sixQ_reach, by rfl, by decide⟩

/-! ### C06, C07 -/

/-- **C06.** A graceful stop succeeds, and reopening with any page size finds the same items, each
once. -/
theorem C06_restart {c : Codec V S} (hc : c.Lawful) {q : PQ K S} (h : Reach c q) {l : Fifo K V} (hl : Holds c q l)
    {p : Nat} (hp : 0 < p) : q.shutDown.1 = .ok () ∧ Reach c (PQ.open p q.shutDown.2.db) ∧
      ∃ l', Holds c (PQ.open p q.shutDown.2.db) l' ∧ l'.Perm l := by
  obtain ⟨h1, h2, _⟩ := rep_shutDown (reach_holds_rep hc h hl)
  refine ⟨h1, ?_, _, rep_holds hc (rep_open h2 hp).1, reopened_perm p l⟩
  obtain ⟨t, p', ops, ht, hp', rfl⟩ := h
  exact ⟨_, p, [], .stopping (ops := ops) ht hp' (by simp [PQ.shutDownStates]), hp, rfl⟩

example : Reach idCodec sixQ ∧ (PQ.open 5 sixQ.shutDown.2.db).size = 6 := ⟨sixQ_reach, by decide⟩

/-- **C07**, what really happens: the first `p` items and the middle keep their order, the last `p` of
the remaining items come back reversed. -/
theorem C07_restart_order {c : Codec V S} (hc : c.Lawful) {q : PQ K S} (h : Reach c q) {l : Fifo K V}
    (hl : Holds c q l) {p : Nat} (hp : 0 < p) :
    Holds c (PQ.open p q.shutDown.2.db)
      (l.take p ++ (l.drop p).take (l.length - p - p) ++ (l.drop p).reverse.take p) := by
  have := rep_holds hc (rep_open (rep_shutDown (reach_holds_rep hc h hl)).2.1 hp).1
  unfold reopened at this
  rwa [List.length_drop] at this

/-- **C07**, part that holds: at most `page_size + 1` items keep their order over a restart.
Missing: more items than that (see `C07_order_refuted`). -/
theorem C07_order_partial {c : Codec V S} (hc : c.Lawful) {q : PQ K S} (h : Reach c q) {l : Fifo K V}
    (hl : Holds c q l) {p : Nat} (hp : 0 < p) (hs : l.length ≤ p + 1) : Holds c (PQ.open p q.shutDown.2.db) l := by
  have := rep_holds hc (rep_open (rep_shutDown (reach_holds_rep hc h hl)).2.1 hp).1
  rwa [reopened_short hs hp] at this

example : Reach idCodec sixQ ∧ (6 : Nat) ≤ 5 + 1 ∧
    (run idCodec (PQ.open 5 sixQ.shutDown.2.db) [.pop, .pop, .pop, .pop, .pop]).2.size = 1 :=
  ⟨sixQ_reach, by decide, by decide⟩

/-- **C07 is false of the code.** Four items in pages of two come back as 1, 2, 4, 3. -/
theorem C07_order_refuted :
    ¬ ∀ (q : PQ Nat Nat) (l : Fifo Nat Nat) (p : Nat), Reach idCodec q → Holds idCodec q l → 0 < p →
      Holds idCodec (PQ.open p q.shutDown.2.db) l := by
  intro hall
  have hr : Reach idCodec (run idCodec (PQ.open 2 []) four).2 := ⟨[], 2, four, .new, by decide, rfl⟩
  obtain ⟨l, hl⟩ := reach_rep idCodec_lawful hr
  have e : items (run idCodec (PQ.open 2 []) four).2 = [(1, 10), (2, 20), (3, 30), (4, 40)] := by decide
  have hh := hall _ l 2 hr (rep_holds idCodec_lawful hl) (by decide)
  have := drain hh
  have hlen : l.length = 4 := by have := congrArg List.length hl.2; rw [e] at this; simpa using this.symm
  have hl' : l = [(1, 10), (2, 20), (3, 30), (4, 40)] := by
    have := hl.2; rw [e] at this; rw [this]; exact (List.map_id' l).symm
  subst hl'
  have h2 := congrArg (fun o => (o.map (fun x => match x with | .val (.ok r) => r | _ => none))) this
  revert h2
  decide

/-! ### C08 -/

/-- **C08**, between calls: reopening after a crash finds what the queue held, but for at most two
pages. Nothing that had been removed comes back, because it is not part of `l`. -/
theorem C08_crash_between_calls {c : Codec V S} (hc : c.Lawful) {q : PQ K S} (h : Reach c q) {l : Fifo K V}
    (hl : Holds c q l) {p : Nat} (hp : 0 < p) : Recovers c p q.db l (2 * q.pageSize) :=
  rep_recovers hc (reach_holds_rep hc h hl) hp

/-- **C08**, during a call: whichever commit the process dies at, reopening finds what the queue held
just before the call or just after it, but for at most two pages. -/
theorem C08_crash_in_call {c : Codec V S} (hc : c.Lawful) {q : PQ K S} (h : Reach c q) {l : Fifo K V}
    (hl : Holds c q l) (op : Op K V) {t : Table K S} (ht : t ∈ stepStates c q op) {p : Nat} (hp : 0 < p) :
    Recovers c p t l (2 * q.pageSize) ∨
      ∃ l', Holds c (step c q op).2 l' ∧ Recovers c p t l' (2 * q.pageSize) := by
  have hr := reach_holds_rep hc h hl
  obtain ⟨l', h1, h2⟩ := rep_step hc hr op
  have hps : (step c q op).2.pageSize = q.pageSize := run_pageSize c [op] q
  simp only [stepStates, List.mem_cons, List.not_mem_nil, or_false] at ht
  rcases ht with rfl | rfl
  · exact .inl (rep_recovers hc hr hp)
  · exact .inr ⟨l', rep_holds hc h2, hps ▸ rep_recovers hc h2 hp⟩

/-- **C08**, while stopping: dying at any commit of a shut-down loses at most two pages. -/
theorem C08_crash_in_shut_down {c : Codec V S} (hc : c.Lawful) {q : PQ K S} (h : Reach c q) {l : Fifo K V}
    (hl : Holds c q l) {t : Table K S} (ht : t ∈ q.shutDownStates) {p : Nat} (hp : 0 < p) :
    Recovers c p t l (2 * q.pageSize) := by
  have hr := reach_holds_rep hc h hl
  obtain ⟨_, h2, f, b, e, hb, hf⟩ := rep_shutDown hr
  simp only [PQ.shutDownStates, List.mem_cons, List.not_mem_nil, or_false] at ht
  rcases ht with rfl | rfl | rfl
  · exact rep_recovers hc hr hp
  · exact stores_recovers hc hf hp (by rw [e]; exact List.sublist_append_left f b) (by rw [e]; simp; omega)
  · exact stores_recovers hc h2 hp (List.Sublist.refl l) (by omega)

/-- **C08**, while starting: dying at any commit of the initial load loses at most two pages (of the
page size that was being used) of what a completed start would have held. -/
theorem C08_crash_in_open {c : Codec V S} (hc : c.Lawful) {t : Table K S} (h : OnDisk c t) {p₀ : Nat} (hp₀ : 0 < p₀)
    {l : Fifo K V} (hl : Holds c (PQ.open p₀ t) l) {t' : Table K S} (ht : t' ∈ PQ.openStates p₀ t) {p : Nat} (hp : 0 < p) :
    ∃ l₀, l₀.Perm l ∧ Recovers c p t' l₀ (2 * p₀) := by
  obtain ⟨l₀, hs⟩ := onDisk_stores hc h
  obtain ⟨h1, _, h3, h4⟩ := rep_open hs hp₀
  refine ⟨l₀, ?_, ?_⟩
  · rw [holds_unique hl (rep_holds hc h1)]; exact (reopened_perm p₀ l₀).symm
  simp only [PQ.openStates, List.mem_cons, List.not_mem_nil, or_false] at ht
  rcases ht with rfl | rfl | rfl
  · exact stores_recovers hc hs hp (List.Sublist.refl _) (by omega)
  · exact stores_recovers hc h3 hp (List.drop_sublist _ _) (by simp; omega)
  · exact stores_recovers hc h4 hp ((List.take_sublist _ _).trans (List.drop_sublist _ _)) (by simp; omega)

/-- The bound of C08 is reached: of six items in pages of two, two survive a crash. -/
theorem C08_bound_is_tight : sixQ.size = 6 ∧ (PQ.open 2 sixQ.db).size + 2 * sixQ.pageSize = 6 := by decide

example : Reach idCodec sixQ ∧ (sixQ.db.map Rec.key) = [3, 4] ∧ stepStates idCodec sixQ (.push 70 7) ≠ [sixQ.db] :=
  ⟨sixQ_reach, by decide, by decide⟩

/-! ### C09 -/

/-- **C09.** After `clear` the queue is empty, and so is every queue opened on its file, whether it
was shut down or crashed. -/
theorem C09_clear {c : Codec V S} (hc : c.Lawful) {q : PQ K S} (h : Reach c q) :
    Holds c q.clear [] ∧ q.clear.size = 0 ∧ ∀ p, 0 < p →
      Holds c (PQ.open p q.clear.db) [] ∧ Holds c (PQ.open p q.clear.shutDown.2.db) [] := by
  obtain ⟨l, hl⟩ := reach_rep hc h
  have hr := rep_clear hl
  refine ⟨rep_holds hc hr, by rw [size_eq, hr.2]; rfl, fun p hp => ⟨?_, ?_⟩⟩
  · rw [clear_db]; exact rep_holds hc (rep_fresh hp)
  · have := rep_holds hc (rep_open (rep_shutDown hr).2.1 hp).1
    simpa [reopened] using this

example : Reach idCodec sixQ ∧ sixQ.size = 6 ∧ sixQ.db.length = 2 := ⟨sixQ_reach, by decide, by decide⟩

/-! ### C10 -/

/-- **C10**, part that holds: the listed keys are first keys of the queue, never more than asked for.
Missing: that all of them are listed (see `C10_first_keys_refuted`). -/
theorem C10_first_keys_partial {c : Codec V S} (hc : c.Lawful) {q : PQ K S} (h : Reach c q) :
    ∃ l : Fifo K V, Holds c q l ∧ ∀ n : Int, q.firstKeys n <+: (keys l).take n.toNat := by
  obtain ⟨l, hl, _⟩ := C01_content hc h
  refine ⟨l, hl, fun n => ?_⟩
  obtain ⟨l', h1, _⟩ := holds_next hl (.firstKeys n)
  obtain ⟨⟨ks, h2, h3⟩, _⟩ := h1
  simp only [step, Out.keys.injEq] at h2
  rw [h2]; exact h3

/-- **C10**, part that holds: right after opening, up to a page of first keys is listed in full. -/
theorem C10_after_open_partial {c : Codec V S} (hc : c.Lawful) {t : Table K S} (h : OnDisk c t) {p : Nat} (hp : 0 < p)
    {l : Fifo K V} (hl : Holds c (PQ.open p t) l) (n : Int) (hn : n ≤ p) :
    (PQ.open p t).firstKeys n = (keys l).take n.toNat := by
  obtain ⟨l₀, hs⟩ := onDisk_stores hc h
  obtain ⟨h1, _⟩ := rep_open hs hp
  have e := holds_unique hl (rep_holds hc h1)
  subst e
  rw [firstKeys_prefix h1]
  have hf := open_front_size p hs
  rw [List.take_take]
  by_cases hlen : n.toNat ≤ (PQ.open p t).front.size
  · rw [Nat.min_eq_right hlen]
  · have : (reopened p l₀).length = l₀.length := (reopened_perm p l₀).length_eq
    rw [Nat.min_eq_left (by omega), List.take_of_length_le (by simp [Spec.keys, this]; omega),
      List.take_of_length_le (by simp [Spec.keys, this]; omega)]

example : OnDisk idCodec sixQ.shutDown.2.db ∧ (PQ.open 3 sixQ.shutDown.2.db).firstKeys 3 = [1, 2, 3] :=
  ⟨.stopping (p := 2) (ops := six) .new (by decide) (by simp [PQ.shutDownStates, sixQ]), by decide⟩

/-- **C10 is false of the code.** With three items in pages of two, asking for three keys gives two;
after two pops, asking for one gives none although one item is queued. -/
theorem C10_first_keys_refuted :
    ¬ ∀ (q : PQ Nat Nat) (l : Fifo Nat Nat) (n : Int), Reach idCodec q → Holds idCodec q l →
      q.firstKeys n = (keys l).take n.toNat := by
  intro hall
  have hr : Reach idCodec (run idCodec (PQ.open 2 []) [.push 10 1, .push 20 2, .push 30 3, .pop, .pop]).2 :=
    ⟨[], 2, _, .new, by decide, rfl⟩
  obtain ⟨l, hl, _⟩ := C01_content idCodec_lawful hr
  have h1 := hall _ l 1 hr hl
  have h2 := (C03_size idCodec_lawful hr hl).1
  have e1 : (run idCodec (PQ.open 2 []) [.push 10 1, .push 20 2, .push 30 3, .pop, .pop]).2.firstKeys 1 = [] := by decide
  have e2 : (run idCodec (PQ.open 2 []) [.push 10 1, .push 20 2, .push 30 3, .pop, .pop]).2.size = 1 := by decide
  rw [e1] at h1
  rw [e2] at h2
  have := congrArg List.length h1
  simp [Spec.keys, ← h2] at this

/-! ### C11 -/

/-- **C11**, part that holds: with a page size above zero, `pop` never fails and returns nothing
exactly when the queue is empty. Missing: page size zero (see `C11_pop_none_refuted`). -/
theorem C11_pop_none_partial {c : Codec V S} (hc : c.Lawful) {q : PQ K S} (h : Reach c q) :
    ∃ l : Fifo K V, Holds c q l ∧ (∃ r, (q.pop c).1 = .ok r) ∧ ((q.pop c).1 = .ok none ↔ l = []) := by
  obtain ⟨l, hl, _⟩ := C01_content hc h
  obtain ⟨l', h1, _⟩ := holds_next hl .pop
  have h2 := h1.1
  simp only [step, Out.val.injEq] at h2
  rw [h2]
  refine ⟨l, hl, ⟨_, rfl⟩, ?_⟩
  rw [Except.ok.injEq]
  cases l <;> simp [Spec.front]

example : Reach idCodec sixQ ∧ (sixQ.pop idCodec).1 = .ok (some 10) := ⟨sixQ_reach, by rfl⟩

/-- **C11 is false of the code** for page size zero: after two pushes the queue reports two items and
`pop` returns nothing. -/
theorem C11_pop_none_refuted :
    ∃ ops : List (Op Nat Nat), (run idCodec (PQ.open 0 []) ops).2.size = 2 ∧
      ((run idCodec (PQ.open 0 []) ops).2.pop idCodec).1 = .ok none :=
  ⟨[.push 10 1, .push 20 2], by decide, by rfl⟩

/-! ### C12 -/

/-- **C12**, part that holds: when the two pages are different objects, or the queue is empty, a second
shut-down succeeds, stores nothing new, and the size stays right. A queue that holds more than one page
of items is always in this case. Missing: a non-empty queue on one shared page (see
`C12_second_shut_down_refuted`). -/
theorem C12_second_shut_down_partial {c : Codec V S} (hc : c.Lawful) {q : PQ K S} (h : Reach c q) {l : Fifo K V}
    (hl : Holds c q l) (hq : q.back ≠ none ∨ l = []) :
    q.shutDown.2.shutDown = (.ok (), q.shutDown.2) ∧ q.shutDown.2.size = l.length := by
  have hr := reach_holds_rep hc h hl
  exact shutDown_twice hr hq

/-- More than a page of items means two pages. -/
theorem C12_two_pages {c : Codec V S} (hc : c.Lawful) {q : PQ K S} (h : Reach c q) {l : Fifo K V}
    (hl : Holds c q l) (hs : q.pageSize < l.length) : q.back ≠ none := by
  have hr := reach_holds_rep hc h hl
  intro hb
  have h1 := (C03_size hc h hl).1
  have h2 := hr.1.shared hb
  have h3 := hr.1.frontSize
  rw [PQ.size, hb, h2] at h1
  simp at h1; omega

example : Reach idCodec sixQ ∧ sixQ.back ≠ none ∧ sixQ.pageSize < sixQ.size := ⟨sixQ_reach, by decide, by decide⟩

/-- **C12 is false of the code**: for every non-empty queue on one shared page the second shut-down
raises, and after the first the reported size is doubled. -/
theorem C12_second_shut_down_refuted {c : Codec V S} (hc : c.Lawful) {q : PQ K S} (h : Reach c q) {l : Fifo K V}
    (hl : Holds c q l) (hb : q.back = none) (hne : l ≠ []) :
    q.shutDown.2.shutDown.1 = .error .integrityError ∧ q.shutDown.2.size = 2 * l.length :=
  shutDown_twice_shared (reach_holds_rep hc h hl) hb hne

example : ∃ q : PQ Nat Nat, Reach idCodec q ∧ q.back = none ∧ q.size = 1 ∧ q.shutDown.2.size = 2 :=
  ⟨(run idCodec (PQ.open 2 []) [.push 10 1]).2, ⟨[], 2, _, .new, by decide, rfl⟩, by decide, by decide, by decide⟩

end Verif.Queue
