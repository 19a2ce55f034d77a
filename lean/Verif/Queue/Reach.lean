import Verif.Queue.Observe
import Verif.Queue.Restart

/-! Every reachable queue represents a list, and the list is determined by the queue's answers. -/

set_option linter.unusedSectionVars false

namespace Verif.Queue

open Verif.Py Verif.Queue.Spec

variable {K V S : Type} [DecidableEq K]

theorem rep_step {c : Codec V S} (hc : c.Lawful) {q : PQ K S} {l : List (K × V)} (h : Rep c q l) (op : Op K V) :
    ∃ l', Allowed l op (step c q op).1 l' ∧ Rep c (step c q op).2 l' := by
  cases op with
  | push v k => obtain ⟨h1, h2⟩ := rep_push h v k; exact ⟨_, ⟨by simp [step, h1], rfl⟩, h2⟩
  | pop => obtain ⟨h1, h2⟩ := rep_pop hc h; exact ⟨_, ⟨by simp [step, h1], rfl⟩, h2⟩
  | inspect k => exact ⟨_, ⟨by simp [step, rep_inspect hc h k], rfl⟩, h⟩
  | popKey k => obtain ⟨h1, h2⟩ := rep_popKey hc h k; exact ⟨_, ⟨by simp [step, h1], rfl⟩, h2⟩
  | firstKeys n =>
    refine ⟨_, ⟨⟨_, rfl, ?_⟩, rfl⟩, h⟩
    rw [firstKeys_prefix h]; exact List.take_prefix _ _
  | size =>
    refine ⟨_, ⟨?_, rfl⟩, h⟩
    simp [step, size_eq, h.2]
  | clear => exact ⟨_, ⟨rfl, rfl⟩, rep_clear h⟩

theorem rep_run {c : Codec V S} (hc : c.Lawful) (ops : List (Op K V)) : ∀ {q : PQ K S} {l : List (K × V)},
    Rep c q l → Answers l ops (run c q ops).1 ∧ ∃ l', Rep c (run c q ops).2 l' := by
  induction ops with
  | nil => intro q l h; exact ⟨rfl, l, h⟩
  | cons op ops ih =>
    intro q l h
    obtain ⟨l', h1, h2⟩ := rep_step hc h op
    obtain ⟨h3, h4⟩ := ih h2
    exact ⟨⟨_, _, l', rfl, h1, h3⟩, h4⟩

theorem rep_holds {c : Codec V S} (hc : c.Lawful) {q : PQ K S} {l : List (K × V)} (h : Rep c q l) : Holds c q l :=
  ⟨h.nodup, fun ops => (rep_run hc ops h).1⟩

theorem run_pageSize (c : Codec V S) (ops : List (Op K V)) : ∀ q : PQ K S, (run c q ops).2.pageSize = q.pageSize := by
  induction ops with
  | nil => intro q; rfl
  | cons op ops ih =>
    intro q
    show (run c (step c q op).2 ops).2.pageSize = _
    rw [ih]
    cases op with
    | push v k =>
      have hset : ∀ (q : PQ K S) b, (q.setBackPage b).pageSize = q.pageSize := by
        intro q b; unfold PQ.setBackPage; split <;> rfl
      have hw : q.writeBack.2.pageSize = q.pageSize := by
        unfold PQ.writeBack; simp only; split <;> rfl
      show (q.push c v k).2.pageSize = _
      unfold PQ.push
      split
      · rfl
      split
      · exact hset _ _
      split
      · rfl
      split
      · rename_i h; rw [h] at hw; exact hw
      · rename_i h; rw [h] at hw; simp only [hset]; exact hw
    | pop =>
      simp only [step, PQ.pop, PQ.loadFront]
      repeat' split
      all_goals rfl
    | popKey k =>
      simp only [step, PQ.popKey, PQ.setBackPage]
      repeat' split
      all_goals rfl
    | _ => rfl

/-! ### lists determined by answers -/

theorem answers_cons {l : Fifo K V} {op : Op K V} {ops : List (Op K V)} {o : Out K V} {outs : List (Out K V)}
    (h : Answers l (op :: ops) (o :: outs)) : ∃ l', Allowed l op o l' ∧ Answers l' ops outs := by
  obtain ⟨o', outs', l', e, h1, h2⟩ := h
  simp only [List.cons.injEq] at e
  obtain ⟨rfl, rfl⟩ := e
  exact ⟨l', h1, h2⟩

theorem lookup_some_iff {l : Fifo K V} (h : (keys l).Nodup) (k : K) (v : V) : lookup l k = some v ↔ (k, v) ∈ l := by
  induction l with
  | nil => simp [lookup]
  | cons a l ih =>
    have h' : (keys l).Nodup := by simp [keys] at h ⊢; exact h.2
    by_cases e : a.1 = k
    · have hk : ∀ v, (k, v) ∉ l := by
        intro v hv
        simp only [keys, List.map_cons, List.nodup_cons] at h
        exact h.1 (by rw [e]; exact List.mem_map.mpr ⟨_, hv, rfl⟩)
      simp only [lookup, List.find?_cons, e, decide_true, Option.map_some, List.mem_cons, hk, or_false,
        Option.some.injEq]
      constructor
      · rintro rfl; exact Prod.ext e.symm rfl
      · intro h; rw [← h]
    · have : lookup (a :: l) k = lookup l k := by simp [lookup, e]
      rw [this, ih h', List.mem_cons]
      constructor
      · exact Or.inr
      · rintro (h | h)
        · rw [← h] at e; exact absurd rfl e
        · exact h

theorem lookup_none_iff (l : Fifo K V) (k : K) : lookup l k = none ↔ k ∉ keys l := by
  simp only [lookup, keys, Option.map_eq_none_iff, List.find?_eq_none, decide_eq_true_eq, List.mem_map, not_exists,
    not_and]

theorem holds_next {c : Codec V S} {q : PQ K S} {l : Fifo K V} (h : Holds c q l) (op : Op K V) :
    ∃ l', Allowed l op (step c q op).1 l' ∧ ∀ ops, Answers l' ops (run c (step c q op).2 ops).1 := by
  cases op with
  | push v k =>
    refine ⟨_, ⟨?_, rfl⟩, fun ops => ?_⟩
    · obtain ⟨_, h1, _⟩ := answers_cons (h.2 [.push v k]); exact h1.1
    · obtain ⟨l', h1, h2⟩ := answers_cons (h.2 (.push v k :: ops)); rw [h1.2] at h2; exact h2
  | pop =>
    refine ⟨_, ⟨?_, rfl⟩, fun ops => ?_⟩
    · obtain ⟨_, h1, _⟩ := answers_cons (h.2 [.pop]); exact h1.1
    · obtain ⟨l', h1, h2⟩ := answers_cons (h.2 (.pop :: ops)); rw [h1.2] at h2; exact h2
  | inspect k =>
    refine ⟨_, ⟨?_, rfl⟩, fun ops => ?_⟩
    · obtain ⟨_, h1, _⟩ := answers_cons (h.2 [.inspect k]); exact h1.1
    · obtain ⟨l', h1, h2⟩ := answers_cons (h.2 (.inspect k :: ops)); rw [h1.2] at h2; exact h2
  | popKey k =>
    refine ⟨_, ⟨?_, rfl⟩, fun ops => ?_⟩
    · obtain ⟨_, h1, _⟩ := answers_cons (h.2 [.popKey k]); exact h1.1
    · obtain ⟨l', h1, h2⟩ := answers_cons (h.2 (.popKey k :: ops)); rw [h1.2] at h2; exact h2
  | firstKeys n =>
    refine ⟨_, ⟨?_, rfl⟩, fun ops => ?_⟩
    · obtain ⟨_, h1, _⟩ := answers_cons (h.2 [.firstKeys n]); exact h1.1
    · obtain ⟨l', h1, h2⟩ := answers_cons (h.2 (.firstKeys n :: ops)); rw [h1.2] at h2; exact h2
  | size =>
    refine ⟨_, ⟨?_, rfl⟩, fun ops => ?_⟩
    · obtain ⟨_, h1, _⟩ := answers_cons (h.2 [.size]); exact h1.1
    · obtain ⟨l', h1, h2⟩ := answers_cons (h.2 (.size :: ops)); rw [h1.2] at h2; exact h2
  | clear =>
    refine ⟨_, ⟨?_, rfl⟩, fun ops => ?_⟩
    · obtain ⟨_, h1, _⟩ := answers_cons (h.2 [.clear]); exact h1.1
    · obtain ⟨l', h1, h2⟩ := answers_cons (h.2 (.clear :: ops)); rw [h1.2] at h2; exact h2

theorem holds_inspect {c : Codec V S} {q : PQ K S} {l : Fifo K V} (h : Holds c q l) (k : K) :
    q.inspect c k = .ok (lookup l k) := by
  obtain ⟨l', h1, _⟩ := holds_next h (.inspect k)
  have := h1.1
  simpa [step] using this

/-- Two lists that a queue holds have the same members. -/
theorem holds_mem {c : Codec V S} {q : PQ K S} {l₁ l₂ : Fifo K V} (h₁ : Holds c q l₁) (h₂ : Holds c q l₂) (e : K × V) :
    e ∈ l₁ ↔ e ∈ l₂ := by
  have h := (holds_inspect h₁ e.1).symm.trans (holds_inspect h₂ e.1)
  simp only [Except.ok.injEq] at h
  rw [← lookup_some_iff h₁.1, ← lookup_some_iff h₂.1, h]

theorem Holds.tail {c : Codec V S} {q : PQ K S} {l : Fifo K V} (h : Holds c q l) : Holds c (q.pop c).2 l.tail := by
  obtain ⟨l', h1, h2⟩ := holds_next h .pop
  rw [h1.2] at h2
  exact ⟨List.Nodup.sublist (List.Sublist.map _ (List.tail_sublist l)) h.1, h2⟩

/-- A queue holds at most one list. -/
theorem holds_unique {c : Codec V S} : ∀ {q : PQ K S} {l₁ l₂ : Fifo K V}, Holds c q l₁ → Holds c q l₂ → l₁ = l₂ := by
  intro q l₁
  induction l₁ generalizing q with
  | nil =>
    intro l₂ h₁ h₂
    cases l₂ with
    | nil => rfl
    | cons a l => have := (holds_mem h₁ h₂ a).mpr (by simp); simp at this
  | cons a l ih =>
    intro l₂ h₁ h₂
    cases l₂ with
    | nil => have := (holds_mem h₁ h₂ a).mp (by simp); simp at this
    | cons b m =>
      have ht : l = m := ih h₁.tail h₂.tail
      subst ht
      have h := (holds_mem h₁ h₂ a).mp (by simp)
      rcases List.mem_cons.mp h with h | h
      · rw [h]
      · exfalso
        have := h₁.1
        simp only [keys, List.map_cons, List.nodup_cons] at this
        exact this.1 (List.mem_map.mpr ⟨_, h, rfl⟩)

/-! ### reachable states -/

theorem rep_fresh {c : Codec V S} {p : Nat} (hp : 0 < p) : Rep c (PQ.open p ([] : Table K S)) [] := by
  have := (rep_open (Stores.nil c (K := K)) hp).1
  simpa [reopened] using this

theorem onDisk_stores {c : Codec V S} (hc : c.Lawful) {t : Table K S} (h : OnDisk c t) : ∃ l, Stores c t l := by
  induction h with
  | new => exact ⟨[], Stores.nil c⟩
  | opening _ hp ht ih =>
    obtain ⟨l, hl⟩ := ih
    obtain ⟨_, _, h2, h3⟩ := rep_open hl hp
    simp only [PQ.openStates, List.mem_cons, List.not_mem_nil, or_false] at ht
    rcases ht with rfl | rfl | rfl
    · exact ⟨_, hl⟩
    · exact ⟨_, h2⟩
    · exact ⟨_, h3⟩
  | @running t t' p ops op _ hp ht ih =>
    obtain ⟨l, hl⟩ := ih
    obtain ⟨h1, _⟩ := rep_open hl hp
    obtain ⟨_, l1, hr⟩ := rep_run hc ops h1
    obtain ⟨l2, _, hr2⟩ := rep_step hc hr op
    simp only [stepStates, List.mem_cons, List.not_mem_nil, or_false] at ht
    rcases ht with rfl | rfl
    · obtain ⟨f, m, b, _, hs, _⟩ := rep_db hr; exact ⟨_, hs⟩
    · obtain ⟨f, m, b, _, hs, _⟩ := rep_db hr2; exact ⟨_, hs⟩
  | @stopping t t' p ops _ hp ht ih =>
    obtain ⟨l, hl⟩ := ih
    obtain ⟨h1, _⟩ := rep_open hl hp
    obtain ⟨_, l1, hr⟩ := rep_run hc ops h1
    obtain ⟨_, hs, f, b, _, _, hf⟩ := rep_shutDown hr
    simp only [PQ.shutDownStates, List.mem_cons, List.not_mem_nil, or_false] at ht
    rcases ht with rfl | rfl | rfl
    · obtain ⟨f, m, b, _, hs, _⟩ := rep_db hr; exact ⟨_, hs⟩
    · exact ⟨_, hf⟩
    · exact ⟨_, hs⟩

theorem reach_rep {c : Codec V S} (hc : c.Lawful) {q : PQ K S} (h : Reach c q) : ∃ l, Rep c q l := by
  obtain ⟨t, p, ops, ht, hp, rfl⟩ := h
  obtain ⟨l, hl⟩ := onDisk_stores hc ht
  exact (rep_run hc ops (rep_open hl hp).1).2

/-- For reachable queues, holding a list and representing it are the same. -/
theorem reach_holds_rep {c : Codec V S} (hc : c.Lawful) {q : PQ K S} (h : Reach c q) {l : Fifo K V}
    (hl : Holds c q l) : Rep c q l := by
  obtain ⟨l', h'⟩ := reach_rep hc h
  rw [holds_unique hl (rep_holds hc h')]
  exact h'

theorem run_append (c : Codec V S) (a b : List (Op K V)) : ∀ q : PQ K S,
    (run c q (a ++ b)).2 = (run c (run c q a).2 b).2 := by
  induction a with
  | nil => intro q; rfl
  | cons op a ih => intro q; exact ih _

theorem Reach.step {c : Codec V S} {q : PQ K S} (h : Reach c q) (op : Op K V) : Reach c (step c q op).2 := by
  obtain ⟨t, p, ops, ht, hp, rfl⟩ := h
  exact ⟨t, p, ops ++ [op], ht, hp, by rw [run_append]; rfl⟩

/-! ### crashes -/

theorem stores_recovers {c : Codec V S} (hc : c.Lawful) {t : Table K S} {s w : Fifo K V} (hs : Stores c t s) {p : Nat}
    (hp : 0 < p) {n : Nat} (h1 : s.Sublist w) (h2 : w.length ≤ s.length + n) : Recovers c p t w n :=
  ⟨s, _, h1, h2, rep_holds hc (rep_open hs hp).1, reopened_perm p s⟩

theorem rep_recovers {c : Codec V S} (hc : c.Lawful) {q : PQ K S} {l : Fifo K V} (h : Rep c q l) {p : Nat} (hp : 0 < p) :
    Recovers c p q.db l (2 * q.pageSize) := by
  obtain ⟨f, m, b, e, hs, hf, hb⟩ := rep_db h
  refine stores_recovers hc hs hp ?_ ?_
  · rw [e, List.append_assoc]
    exact (List.sublist_append_left m b).trans (List.sublist_append_right f _)
  · rw [e]; simp; omega

theorem open_front_size {c : Codec V S} (p : Nat) {t : Table K S} {l : Fifo K V} (h : Stores c t l) :
    (PQ.open p t).front.size = min p l.length := by
  obtain ⟨_, _, _, hfl, _⟩ := initFront_spec p h.ids h.keys
  have e : (PQ.open p t).front = (PQ.fresh p t).initFront.front := by
    unfold PQ.open PQ.initBack
    split <;> rfl
  have hlen : (Table.asc t).length = l.length := by
    have := congrArg List.length h.content; simpa using this
  rw [e]; unfold Page.size; rw [hfl]; simp [hlen]

/-! ### shutting down twice -/

theorem shutDown_idle {q : PQ K S} (hf : q.front.size = 0) (hb : q.backPage.size = 0) : q.shutDown = (.ok (), q) := by
  unfold PQ.shutDown
  split
  · rw [if_neg (by omega)]
  · simp only [if_neg (show ¬ q.front.size > 0 by omega), if_neg (show ¬ q.backPage.size > 0 by omega)]

theorem writeFront_ok {c : Codec V S} {q : PQ K S} {l : Fifo K V} (h : Rep c q l) :
    ∃ t, q.writeFront = (.ok (), { q with db := t, front := Page.empty, back := some q.backPage }) ∧
      (t.map Rec.id).Nodup ∧ (t.map Rec.key).Nodup ∧
      (Table.asc t).map rItem = q.front.list.map eItem ++ (Table.asc q.db).map rItem := by
  have hk := h.1.keys
  rw [items_keys, List.nodup_append] at hk
  exact writeFront_spec h.1.ids hk.1

theorem writeBack_idle {q : PQ K S} (hf : q.front.size = 0) (h : q.writeBack.1 = .ok ()) :
    q.writeBack.2.shutDown = (.ok (), q.writeBack.2) := by
  unfold PQ.writeBack at h ⊢
  simp only at h ⊢
  split at h
  · cases h
  · apply shutDown_idle
    · exact hf
    · rfl

theorem shutDown_twice {c : Codec V S} {q : PQ K S} {l : Fifo K V} (h : Rep c q l) (hq : q.back ≠ none ∨ l = []) :
    q.shutDown.2.shutDown = (.ok (), q.shutDown.2) ∧ q.shutDown.2.size = l.length := by
  have hsize : q.size = l.length := by rw [size_eq, h.2, List.length_map]
  obtain ⟨hok, hst, _⟩ := rep_shutDown h
  have hlen : q.shutDown.2.db.length = l.length := by
    have := congrArg List.length hst.content
    simpa [length_asc] using this
  -- it is enough that nothing is left in memory
  suffices hm : q.shutDown.2.front.size = 0 ∧ q.shutDown.2.backPage.size = 0 by
    refine ⟨shutDown_idle hm.1 hm.2, ?_⟩
    unfold PQ.size
    split
    · omega
    · rename_i b hb
      have : q.shutDown.2.backPage = b := by simp [PQ.backPage, hb]
      rw [this] at hm; omega
  cases hb : q.back with
  | none =>
    have hl : l = [] := by
      rcases hq with hq | hq
      · exact absurd hb hq
      · exact hq
    have hf : q.front.size = 0 := by rw [PQ.size, hb] at hsize; simp [hl] at hsize; omega
    have hbp : q.backPage = q.front := by simp [PQ.backPage, hb]
    rw [shutDown_idle hf (by rw [hbp]; exact hf)]
    exact ⟨hf, by rw [hbp]; exact hf⟩
  | some b =>
    have hbp : q.backPage = b := by simp [PQ.backPage, hb]
    have key : ∀ q' : PQ K S, q'.front.size = 0 → (if q'.backPage.size > 0 then q'.writeBack else (.ok (), q')).1 = .ok () →
        (if q'.backPage.size > 0 then q'.writeBack else (.ok (), q')).2.front.size = 0 ∧
        (if q'.backPage.size > 0 then q'.writeBack else (.ok (), q')).2.backPage.size = 0 := by
      intro q' hf' h'
      split at h' <;> rename_i hc'
      · rw [if_pos hc']
        unfold PQ.writeBack at h' ⊢
        simp only at h' ⊢
        split at h'
        · cases h'
        · exact ⟨hf', rfl⟩
      · rw [if_neg hc']; exact ⟨hf', Nat.eq_zero_of_not_pos hc'⟩
    unfold PQ.shutDown at hok ⊢
    rw [hb] at hok ⊢
    simp only at hok ⊢
    by_cases hf : q.front.size > 0
    · obtain ⟨t, hw, _⟩ := writeFront_ok h
      simp only [if_pos hf, hw] at hok ⊢
      exact key _ rfl hok
    · simp only [if_neg hf] at hok ⊢
      exact key _ (by omega) hok

theorem shutDown_twice_shared {c : Codec V S} {q : PQ K S} {l : Fifo K V} (h : Rep c q l) (hb : q.back = none)
    (hne : l ≠ []) :
    q.shutDown.2.shutDown.1 = .error .integrityError ∧ q.shutDown.2.size = 2 * l.length := by
  have hsize : q.size = l.length := by rw [size_eq, h.2, List.length_map]
  have hdb := h.1.shared hb
  have hf : q.front.size = l.length := by rw [PQ.size, hb, hdb] at hsize; simpa using hsize
  have hl : 0 < l.length := List.length_pos_of_ne_nil hne
  obtain ⟨t, hw, hids, hkeys, hcont⟩ := writeFront_ok h
  have hbp : q.backPage = q.front := by simp [PQ.backPage, hb]
  have e : q.shutDown = (.ok (), { q with db := t, front := Page.empty, back := some q.front }) := by
    unfold PQ.shutDown; rw [hb]; simp only [if_pos (show q.front.size > 0 by omega), hw, hbp]
  have htl : t.length = l.length := by
    have := congrArg List.length hcont
    simp only [List.length_map, length_asc, List.length_append, hdb] at this
    unfold Page.size at hf; simpa [hf] using this
  rw [e]
  constructor
  · have hfe : (Page.empty : Page K S).size = 0 := rfl
    unfold PQ.shutDown
    simp only [PQ.backPage, hfe, gt_iff_lt, lt_irrefl, if_false, if_pos (show 0 < q.front.size by omega)]
    unfold PQ.writeBack
    simp only [PQ.backPage]
    have hbad : ¬ ((t ++ PQ.mkRecs 1 (Table.maxId t + 1) q.front.list).map Rec.key).Nodup := by
      rw [List.map_append, mkRecs_keys, List.nodup_append]
      intro hn
      obtain ⟨x, rest, hx⟩ := List.exists_cons_of_ne_nil (l := q.front.list)
        (by intro h0; unfold Page.size at hf; rw [h0] at hf; simp at hf; omega)
      have hmem : x.key ∈ t.map Rec.key := by
        rw [← ((asc_perm t).map Rec.key).mem_iff, ← rItem_fst, hcont, hx]
        simp [eItem]
      exact hn.2.2 x.key hmem x.key (by rw [hx]; simp) rfl
    have : Table.insertAll t (PQ.mkRecs 1 (Table.maxId t + 1) q.front.list) = .error .integrityError := by
      unfold Table.insertAll; rw [if_neg (fun h => hbad h.2)]
    rw [this]
  · show t.length + ((Page.empty : Page K S).size + q.front.size) = _
    rw [htl, hf]; simp [Page.size, Page.empty]; omega

end Verif.Queue
