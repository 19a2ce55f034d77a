import Verif.Delivery.Lemmas

/-!
# The invariant behind C76: what is under way on the client's connection belongs to the message being sent
-/

set_option linter.unusedSectionVars false

namespace Verif.Delivery

open Verif.Py Verif.Buffered Verif.Client Verif.Queue Verif.Pending

variable {K D M S M' R' S' : Type} [DecidableEq K]

/-- How many requests and replies of connection `c` are under way. -/
def load (n : Net K D M S M' R' S') (c : Nat) : Nat :=
  (n.sends.map Prod.fst).count c + n.asking.count (some c) + (n.replies.map Prod.fst).count c

/-- Facts that do not depend on what the client is doing. -/
structure Base (X : Setting K D M S M' R' S') (n : Net K D M S M' R' S') : Prop where
  len : n.asking.length = n.rcv.collecting.length
  tagS : ∀ x ∈ n.sends, x.1 ≤ n.conn
  tagA : ∀ c, some c ∈ n.asking → c ≤ n.conn
  tagR : ∀ x ∈ n.replies, x.1 ≤ n.conn
  started : ∀ (t : Nat) e, n.snd.tasks[t]? = some (.inFlight e) → .started e ∈ n.snd.log
  done : ∀ k ∈ handled n.snd.log, Arrived X.rcv.build n.snd.log n.rcv.core.log k

/-- What is under way on the present connection belongs to `e`. -/
structure Mine (X : Setting K D M S M' R' S') (n : Net K D M S M' R' S') (e : PEntry K D M) : Prop where
  sends : ∀ k d, (n.conn, k, d) ∈ n.sends → k = e.key ∧ d = e.data
  asking : ∀ (i : Nat) (x : K × D), n.asking[i]? = some (some n.conn) → n.rcv.collecting[i]? = some x → x.1 = e.key ∧ X.rcv.build e.data = some x.2
  replies : (n.conn, none) ∈ n.replies → ∃ d m, X.rcv.build e.data = some d ∧ .acked e.key d m ∈ n.rcv.core.log

/-- The invariant. -/
structure NInv (X : Setting K D M S M' R' S') (n : Net K D M S M' R' S') : Prop where
  base : Base X n
  cur : ∀ t rc, n.phase = .waiting t rc → load n n.conn ≤ 1 ∧ ∃ e, n.snd.tasks[t]? = some (.inFlight e) ∧ Mine X n e
  quiet : X.kind ≠ .transient → (∀ t rc, n.phase ≠ .waiting t rc) → load n n.conn = 0

theorem count_erase {α β : Type} [BEq β] [LawfulBEq β] (f : α → β) {l : List α} {i : Nat} {x : α} (h : l[i]? = some x) (c : β) :
    (l.map f).count c = ((l.eraseIdx i).map f).count c + if f x == c then 1 else 0 := by
  obtain ⟨p, q, h1, h2⟩ := eraseIdx_split h
  rw [h2, h1]
  simp only [List.map_append, List.map_cons, List.count_append, List.count_cons]
  omega

theorem count_erase_le {α β : Type} [BEq β] [LawfulBEq β] (f : α → β) (l : List α) (i : Nat) (c : β) :
    ((l.eraseIdx i).map f).count c ≤ (l.map f).count c := by
  cases h : l[i]? with
  | none => rw [List.eraseIdx_of_length_le (List.getElem?_eq_none_iff.mp h)]
  | some x => rw [count_erase f h c]; omega

theorem mem_erase {α : Type} {l : List α} {i : Nat} {x : α} (h : x ∈ l.eraseIdx i) : x ∈ l :=
  (List.eraseIdx_sublist l i).subset h

/-- Nothing is under way on a connection with a number not given out. -/
theorem load_new {X : Setting K D M S M' R' S'} {n : Net K D M S M' R' S'} (h : Base X n) : load n (n.conn + 1) = 0 := by
  have h1 : (n.sends.map Prod.fst).count (n.conn + 1) = 0 := List.count_eq_zero.mpr fun hm => by
    obtain ⟨x, hx, he⟩ := List.mem_map.mp hm
    have := h.tagS x hx; omega
  have h2 : n.asking.count (some (n.conn + 1)) = 0 := List.count_eq_zero.mpr fun hm => by
    have := h.tagA _ hm; omega
  have h3 : (n.replies.map Prod.fst).count (n.conn + 1) = 0 := List.count_eq_zero.mpr fun hm => by
    obtain ⟨x, hx, he⟩ := List.mem_map.mp hm
    have := h.tagR x hx; omega
  unfold load; omega

theorem load_zero {n : Net K D M S M' R' S'} {c : Nat} (h : load n c = 0) :
    (∀ x ∈ n.sends, x.1 ≠ c) ∧ some c ∉ n.asking ∧ ∀ x ∈ n.replies, x.1 ≠ c := by
  unfold load at h
  have h1 : (n.sends.map Prod.fst).count c = 0 := by omega
  have h2 : n.asking.count (some c) = 0 := by omega
  have h3 : (n.replies.map Prod.fst).count c = 0 := by omega
  refine ⟨?_, List.count_eq_zero.mp h2, ?_⟩
  · rintro x hx rfl
    exact List.count_eq_zero.mp h1 (List.mem_map.mpr ⟨x, hx, rfl⟩)
  · rintro x hx rfl
    exact List.count_eq_zero.mp h3 (List.mem_map.mpr ⟨x, hx, rfl⟩)

theorem Arrived.mono {build : D → Option D} {s s' : List (Ev K D M String)} {g g' : List (Ev K D M' R')} {k : K}
    (h : Arrived build s g k) (hs : ∀ e ∈ s, e ∈ s') (hg : ∀ e ∈ g, e ∈ g') : Arrived build s' g' k := by
  obtain ⟨e, d, m, h1, h2, h3, h4⟩ := h
  exact ⟨e, d, m, hs _ h1, h2, h3, hg _ h4⟩

theorem outcome_ok {text : Err → String} {x : Except Err Unit} : isOk (outcomeOf text x) = true ↔ x = .ok () := by
  cases x with
  | ok u => simp [outcomeOf, isOk]
  | error e => cases e <;> simp [outcomeOf, isOk]

/-- The end of `send_message`. -/
theorem inv_settle {X : Setting K D M S M' R' S'} {n n' : Net K D M S M' R' S'} {t : Nat} {x : Except Err Unit} (h : Base X n)
    (hx : x = .ok () → ∃ e, n.snd.tasks[t]? = some (.inFlight e) ∧ ∃ d m, X.rcv.build e.data = some d ∧ .acked e.key d m ∈ n.rcv.core.log)
    (hq : X.kind ≠ .transient → load n n.conn = 0) (hs : settle X n t x = some n') : NInv X n' := by
  unfold settle at hs
  rw [Option.map_eq_some_iff] at hs
  obtain ⟨s', hst, rfl⟩ := hs
  obtain ⟨e, ht, hh, hm, hf⟩ := attempt_over hst
  refine ⟨⟨h.len, h.tagS, h.tagA, h.tagR, ?_, ?_⟩, ?_, fun hk _ => hq hk⟩
  · intro t' e' ht'
    rcases hf t' e' ht' with h' | h'
    · exact hm _ (h.started _ _ h')
    · exact h'
  · intro k hk
    rw [hh] at hk
    split at hk
    · rename_i ho
      obtain ⟨e1, ht1, d, m, h1, h2⟩ := hx (outcome_ok.mp ho)
      rw [ht] at ht1
      cases ht1
      rcases List.mem_cons.mp hk with rfl | hk
      · exact ⟨e, d, m, hm _ (h.started _ _ ht), rfl, h1, h2⟩
      · exact (h.done k hk).mono hm fun _ h => h
    · exact (h.done k hk).mono hm fun _ h => h
  · intro t' rc' hp
    cases hp

/-- After a failed try. -/
theorem inv_fail {X : Setting K D M S M' R' S'} {n n' : Net K D M S M' R' S'} {t : Nat} {rc : Int} {a : Attempt} (h : Base X n)
    (hq : X.kind ≠ .transient → load n n.conn = 0 ∨ X.kind = .persistent ∧ ∃ b, a = .broken b ∨ a = .empty b)
    (hs : fail X n t rc a = some n') : NInv X n' := by
  have hle : n.conn ≤ reconnect X.kind n.conn a := by
    unfold reconnect; split
    · split <;> omega
    · split <;> omega
    · exact le_rfl
  have hb : Base X { n with conn := reconnect X.kind n.conn a } :=
    ⟨h.len, fun x hx => le_trans (h.tagS x hx) hle, fun c hc => le_trans (h.tagA c hc) hle,
      fun x hx => le_trans (h.tagR x hx) hle, h.started, h.done⟩
  have hl : X.kind ≠ .transient → load n (reconnect X.kind n.conn a) = 0 := by
    intro hk
    rcases hq hk with h0 | ⟨hp, b, rfl | rfl⟩
    · have : reconnect X.kind n.conn a = n.conn ∨ reconnect X.kind n.conn a = n.conn + 1 := by
        unfold reconnect; split
        · split <;> simp
        · split <;> simp
        · exact .inl rfl
      rcases this with e | e <;> rw [e]
      · exact h0
      · exact load_new h
    · simp only [reconnect, hp, if_true]; exact load_new h
    · simp only [reconnect, hp, if_true]; exact load_new h
  unfold fail at hs
  split at hs
  · simp only [Option.some.injEq] at hs
    subst hs
    exact ⟨⟨hb.len, hb.tagS, hb.tagA, hb.tagR, hb.started, hb.done⟩, fun _ _ hp => Phase.noConfusion hp, fun hk _ => hl hk⟩
  · exact inv_settle hb (fun hx => by cases hx) hl hs
  · cases hs

/-- The endpoint does something that is not receiving. -/
theorem inv_rcv {X : Setting K D M S M' R' S'} {n : Net K D M S M' R' S'} {h' : Handler.HSt K D M' R' S'} (h : NInv X n)
    (hc : h'.collecting = n.rcv.collecting) (hl : ∀ e ∈ n.rcv.core.log, e ∈ h'.core.log) : NInv X { n with rcv := h' } := by
  refine ⟨⟨by rw [hc]; exact h.base.len, h.base.tagS, h.base.tagA, h.base.tagR, h.base.started, ?_⟩, ?_, h.quiet⟩
  · intro k hk
    exact (h.base.done k hk).mono (fun _ h => h) hl
  · intro t rc hp
    obtain ⟨h1, e, h2, h3⟩ := h.cur t rc hp
    refine ⟨h1, e, h2, h3.sends, ?_, ?_⟩
    · intro i x hi hx
      simp only [hc] at hx
      exact h3.asking i x hi hx
    · intro hr
      obtain ⟨d, m, h4, h5⟩ := h3.replies hr
      exact ⟨d, m, h4, hl _ h5⟩

theorem get_append_one {α : Type} {l : List α} {x y : α} {i : Nat} (h : (l ++ [x])[i]? = some y) :
    l[i]? = some y ∨ i = l.length ∧ y = x := by
  rw [List.getElem?_append] at h
  split at h
  · exact .inl h
  · rename_i hn
    cases hi : i - l.length with
    | zero => rw [hi] at h; exact .inr ⟨by omega, (Option.some.inj h).symm⟩
    | succ m => rw [hi] at h; cases h

/-- The invariant holds in every state reached by safe events. -/
theorem inv_step {X : Setting K D M S M' R' S'} {n n' : Net K D M S M' R' S'} {l : Label K D M' R'} (h : NInv X n)
    (hl : Safe X.kind l) (hs : step X n l = some n') : NInv X n' := by
  cases l with
  | sender l =>
    have hnf : ∀ t o, l ≠ .finish t o := by
      rintro t o rfl; simp [step] at hs
    have hs' : (Sender.step X.snd n.snd l).map (fun s => { n with snd := s }) = some n' := by
      cases l <;> first | exact hs | exact absurd rfl (hnf _ _)
    rw [Option.map_eq_some_iff] at hs'
    obtain ⟨s', hst, rfl⟩ := hs'
    obtain ⟨h1, h2, h3, h4⟩ := sender_same hnf hst
    refine ⟨⟨h.base.len, h.base.tagS, h.base.tagA, h.base.tagR, ?_, ?_⟩, ?_, h.quiet⟩
    · intro t e ht
      rcases h4 t e ht with h' | h'
      · exact h2 _ (h.base.started t e h')
      · exact h'
    · intro k hk
      rw [h1] at hk
      exact (h.base.done k hk).mono h2 fun _ h => h
    · intro t rc hp
      obtain ⟨g1, e, g2, g3⟩ := h.cur t rc hp
      exact ⟨g1, e, h3 t e g2, g3.sends, g3.asking, g3.replies⟩
  | send t =>
    simp only [step] at hs
    split at hs
    · rename_i hp ht
      have hq : X.kind ≠ .transient → load n n.conn = 0 := fun hk => h.quiet hk (by rw [hp]; simp)
      split at hs
      · simp only [Option.some.injEq] at hs
        subst hs
        exact ⟨⟨h.base.len, h.base.tagS, h.base.tagA, h.base.tagR, h.base.started, h.base.done⟩, fun _ _ hp => Phase.noConfusion hp, fun hk _ => hq hk⟩
      · exact inv_settle h.base (fun hx => by cases hx) hq hs
    · cases hs
  | transmit =>
    simp only [step] at hs
    split at hs
    · rename_i t rc hp
      split at hs
      · rename_i e ht
        simp only [Option.some.injEq] at hs
        subst hs
        -- the connection used carries nothing
        have hc : ∃ c, (if X.kind = .transient then n.conn + 1 else n.conn) = c ∧ n.conn ≤ c ∧ load n c = 0 := by
          refine ⟨_, rfl, by split <;> omega, ?_⟩
          split
          · exact load_new h.base
          · rename_i hk; exact h.quiet hk (by rw [hp]; simp)
        obtain ⟨c, hce, hle, h0⟩ := hc
        simp only [hce]
        obtain ⟨z1, z2, z3⟩ := load_zero h0
        refine ⟨⟨h.base.len, ?_, fun c' hc' => le_trans (h.base.tagA c' hc') hle, fun x hx => le_trans (h.base.tagR x hx) hle,
          h.base.started, h.base.done⟩, ?_, ?_⟩
        · intro x hx
          rcases List.mem_append.mp hx with hx | hx
          · exact le_trans (h.base.tagS x hx) hle
          · simp only [List.mem_singleton] at hx; subst hx; exact le_rfl
        · intro t' rc' hp'
          simp only [Phase.waiting.injEq] at hp'
          obtain ⟨rfl, rfl⟩ := hp'
          refine ⟨?_, e, ht, ?_, ?_, ?_⟩
          · simp only [load, List.map_append, List.map_cons, List.map_nil, List.count_append, List.count_singleton_self]
            unfold load at h0
            omega
          · intro k d hkd
            rcases List.mem_append.mp hkd with hx | hx
            · exact absurd rfl (z1 _ hx)
            · simp only [List.mem_singleton, Prod.mk.injEq, true_and] at hx; exact hx
          · intro i x hi hx
            exact absurd (List.mem_of_getElem? hi) z2
          · intro hr
            exact absurd rfl (z3 _ hr)
        · intro _ hw
          exact absurd rfl (hw t rc)
      · cases hs
    · cases hs
  | unsent a =>
    simp only [step] at hs
    split at hs
    · cases hs
    · rename_i t rc hp ha
      exact inv_fail h.base (fun hk => .inl (h.quiet hk (by rw [hp]; simp))) hs
    · cases hs
  | gone a =>
    simp only [step] at hs
    split at hs
    · cases hs
    · rename_i t rc hp ha
      refine inv_fail h.base (fun hk => .inr ?_) hs
      rcases hl with hl | hl
      · exact absurd hl hk
      · rename_i a' _ _; clear hs ha; cases a' with
        | broken b => exact ⟨hl, b, .inl rfl⟩
        | empty b => exact ⟨hl, b, .inr rfl⟩
        | reply s => exact absurd hl id
        | timeout => exact absurd hl id
        | other => exact absurd hl id
        | base => exact absurd hl id
    · cases hs
  | arrive i er =>
    simp only [step] at hs
    split at hs
    · rename_i c k d hi
      split at hs
      · rw [Option.map_eq_some_iff] at hs
        obtain ⟨g, hg, rfl⟩ := hs
        obtain ⟨hadd, hcol⟩ := handler_arrive hg
        have hmem := List.mem_of_getElem? hi
        have hcnt := fun c' => count_erase (Prod.fst : Nat × K × D → Nat) hi c'
        have hdone : ∀ k ∈ handled n.snd.log, Arrived X.rcv.build n.snd.log g.core.log k := fun k hk =>
          (h.base.done k hk).mono (fun _ h => h) fun _ he => hadd.mem he
        split
        · rename_i hlen
          have hceq : g.collecting = n.rcv.collecting := by
            rcases hcol with hc | ⟨d', _, hc⟩
            · exact hc
            · rw [hc] at hlen; simp at hlen
          refine ⟨⟨by rw [hceq]; exact h.base.len, fun x hx => h.base.tagS x (mem_erase hx), h.base.tagA, ?_, h.base.started, hdone⟩, ?_, ?_⟩
          · intro x hx
            rcases List.mem_append.mp hx with hx | hx
            · exact h.base.tagR x hx
            · simp only [List.mem_singleton] at hx; subst hx; exact h.base.tagS _ hmem
          · intro t rc hp
            obtain ⟨h1, e, h2, h3⟩ := h.cur t rc hp
            refine ⟨?_, e, h2, fun k d hkd => h3.sends k d (mem_erase hkd), ?_, ?_⟩
            · have := hcnt n.conn
              simp only [load, List.map_append, List.map_cons, List.map_nil, List.count_append, List.count_cons, List.count_nil, beq_iff_eq] at h1 ⊢
              simp only [beq_iff_eq] at this
              omega
            · intro j x hj hx
              simp only [hceq] at hx
              exact h3.asking j x hj hx
            · intro hr
              rcases List.mem_append.mp hr with hr | hr
              · obtain ⟨d', m, g1, g2⟩ := h3.replies hr
                exact ⟨d', m, g1, hadd.mem g2⟩
              · simp at hr
          · intro hk hw
            have h0 := h.quiet hk hw
            have := hcnt n.conn
            simp only [load, List.map_append, List.map_cons, List.map_nil, List.count_append, List.count_cons, List.count_nil, beq_iff_eq] at h0 ⊢
            simp only [beq_iff_eq] at this
            omega
        · rename_i hlen
          obtain ⟨d', hd', hceq⟩ : ∃ d', X.rcv.build d = some d' ∧ g.collecting = n.rcv.collecting ++ [(k, d')] := by
            rcases hcol with hc | hc
            · exact absurd (by rw [hc]) hlen
            · exact hc
          refine ⟨⟨by rw [hceq]; simp [h.base.len], fun x hx => h.base.tagS x (mem_erase hx), ?_, h.base.tagR, h.base.started, hdone⟩, ?_, ?_⟩
          · intro c' hc'
            rcases List.mem_append.mp hc' with hx | hx
            · exact h.base.tagA c' hx
            · simp only [List.mem_singleton, Option.some.injEq] at hx; subst hx; exact h.base.tagS _ hmem
          · intro t rc hp
            obtain ⟨h1, e, h2, h3⟩ := h.cur t rc hp
            refine ⟨?_, e, h2, fun k d hkd => h3.sends k d (mem_erase hkd), ?_, ?_⟩
            · have := hcnt n.conn
              simp only [load, List.count_append, List.count_cons, List.count_nil, beq_iff_eq, Option.some.injEq] at h1 ⊢
              simp only [beq_iff_eq] at this
              omega
            · intro j x hj hx
              simp only [hceq] at hx
              rcases get_append_one hj with hj' | ⟨hj', hcc⟩
              · rw [List.getElem?_append_left (by rw [← h.base.len]; exact (List.getElem?_eq_some_iff.mp hj').1)] at hx
                exact h3.asking j x hj' hx
              · rcases get_append_one hx with hx' | ⟨_, rfl⟩
                · have := (List.getElem?_eq_some_iff.mp hx').1
                  have := h.base.len
                  omega
                · simp only [Option.some.injEq] at hcc
                  subst hcc
                  obtain ⟨rfl, rfl⟩ := h3.sends k d hmem
                  exact ⟨rfl, hd'⟩
            · intro hr
              obtain ⟨d', m, g1, g2⟩ := h3.replies hr
              exact ⟨d', m, g1, hadd.mem g2⟩
          · intro hk hw
            have h0 := h.quiet hk hw
            have := hcnt n.conn
            simp only [load, List.count_append, List.count_cons, List.count_nil, beq_iff_eq, Option.some.injEq] at h0 ⊢
            simp only [beq_iff_eq] at this
            omega
      · cases hs
    · cases hs
  | accept i m =>
    simp only [step] at hs
    split at hs
    · rename_i o hi
      rw [Option.map_eq_some_iff] at hs
      obtain ⟨g, hg, rfl⟩ := hs
      obtain ⟨k, d, hki, hcol, hlog⟩ := handler_accept hg
      have hcnt := count_erase (id : Option Nat → Option Nat) hi (some n.conn)
      simp only [List.map_id_fun, id_eq, beq_iff_eq] at hcnt
      have hmono : ∀ e ∈ n.rcv.core.log, e ∈ g.core.log := fun e he => by rw [hlog]; exact List.mem_cons_of_mem _ he
      have hrep : (List.map Prod.fst (o.toList.map fun c => ((c, none) : Nat × Option Err))).count n.conn = if o = some n.conn then 1 else 0 := by
        cases o with
        | none => simp
        | some c => simp [List.count_cons]
      refine ⟨⟨?_, h.base.tagS, fun c hc => h.base.tagA c (mem_erase hc), ?_, h.base.started, fun k hk => (h.base.done k hk).mono (fun _ h => h) hmono⟩, ?_, ?_⟩
      · rw [hcol, List.length_eraseIdx, List.length_eraseIdx, h.base.len]
      · intro x hx
        rcases List.mem_append.mp hx with hx | hx
        · exact h.base.tagR x hx
        · cases o with
          | none => simp at hx
          | some c =>
            simp only [Option.toList_some, List.map_cons, List.map_nil, List.mem_singleton] at hx
            subst hx
            exact h.base.tagA c (List.mem_of_getElem? hi)
      · intro t rc hp
        obtain ⟨h1, e, h2, h3⟩ := h.cur t rc hp
        refine ⟨?_, e, h2, h3.sends, ?_, ?_⟩
        · simp only [load, List.map_append, List.count_append, hrep] at h1 ⊢
          omega
        · intro j x hj hx
          simp only [hcol] at hx
          simp only [List.getElem?_eraseIdx] at hj hx
          split at hj
          · rename_i hlt
            rw [if_pos hlt] at hx
            exact h3.asking j x hj hx
          · rename_i hlt
            rw [if_neg hlt] at hx
            exact h3.asking (j + 1) x hj hx
        · intro hr
          rcases List.mem_append.mp hr with hr | hr
          · obtain ⟨d', m', g1, g2⟩ := h3.replies hr
            exact ⟨d', m', g1, hmono _ g2⟩
          · cases o with
            | none => simp at hr
            | some c =>
              simp only [Option.toList_some, List.map_cons, List.map_nil, List.mem_singleton, Prod.mk.injEq, and_true] at hr
              subst hr
              obtain ⟨g1, g2⟩ := h3.asking i (k, d) hi hki
              simp only at g1 g2
              exact ⟨d, m, g2, by rw [hlog, g1]; exact List.mem_cons_self⟩
      · intro hk hw
        have h0 := h.quiet hk hw
        simp only [load, List.map_append, List.count_append, hrep] at h0 ⊢
        omega
    · cases hs
  | refuse i er =>
    simp only [step] at hs
    split at hs
    · rename_i o hi
      split at hs
      · rw [Option.map_eq_some_iff] at hs
        obtain ⟨g, hg, rfl⟩ := hs
        obtain ⟨⟨x, hki⟩, hcol, hadd⟩ := handler_refuse hg
        have hcnt := count_erase (id : Option Nat → Option Nat) hi (some n.conn)
        simp only [List.map_id_fun, id_eq, beq_iff_eq] at hcnt
        have hmono : ∀ e ∈ n.rcv.core.log, e ∈ g.core.log := fun e he => hadd.mem he
        have hrep : (List.map Prod.fst (o.toList.map fun c => ((c, some er) : Nat × Option Err))).count n.conn = if o = some n.conn then 1 else 0 := by
          cases o with
          | none => simp
          | some c => simp [List.count_cons]
        refine ⟨⟨?_, h.base.tagS, fun c hc => h.base.tagA c (mem_erase hc), ?_, h.base.started, fun k hk => (h.base.done k hk).mono (fun _ h => h) hmono⟩, ?_, ?_⟩
        · rw [hcol, List.length_eraseIdx, List.length_eraseIdx, h.base.len]
        · intro x hx
          rcases List.mem_append.mp hx with hx | hx
          · exact h.base.tagR x hx
          · cases o with
            | none => simp at hx
            | some c =>
              simp only [Option.toList_some, List.map_cons, List.map_nil, List.mem_singleton] at hx
              subst hx
              exact h.base.tagA c (List.mem_of_getElem? hi)
        · intro t rc hp
          obtain ⟨h1, e, h2, h3⟩ := h.cur t rc hp
          refine ⟨?_, e, h2, h3.sends, ?_, ?_⟩
          · simp only [load, List.map_append, List.count_append, hrep] at h1 ⊢
            omega
          · intro j x hj hx
            simp only [hcol] at hx
            simp only [List.getElem?_eraseIdx] at hj hx
            split at hj
            · rename_i hlt
              rw [if_pos hlt] at hx
              exact h3.asking j x hj hx
            · rename_i hlt
              rw [if_neg hlt] at hx
              exact h3.asking (j + 1) x hj hx
          · intro hr
            rcases List.mem_append.mp hr with hr | hr
            · obtain ⟨d', m', g1, g2⟩ := h3.replies hr
              exact ⟨d', m', g1, hmono _ g2⟩
            · cases o <;> simp at hr
        · intro hk hw
          have h0 := h.quiet hk hw
          simp only [load, List.map_append, List.count_append, hrep] at h0 ⊢
          omega
      · cases hs
    · cases hs
  | read j =>
    simp only [step] at hs
    split at hs
    · rename_i t rc c a hp hj
      split at hs
      · rename_i hc
        obtain ⟨rfl, _⟩ := hc
        obtain ⟨h1, e, h2, h3⟩ := h.cur t rc hp
        have hcnt := count_erase (Prod.fst : Nat × Option Err → Nat) hj n.conn
        simp only [beq_self_eq_true, if_true] at hcnt
        refine inv_settle (n := { n with replies := n.replies.eraseIdx j })
          ⟨h.base.len, h.base.tagS, h.base.tagA, fun x hx => h.base.tagR x (mem_erase hx), h.base.started, h.base.done⟩ ?_ ?_ hs
        · intro hx
          cases a with
          | none => exact ⟨e, h2, h3.replies (List.mem_of_getElem? hj)⟩
          | some er => cases hx
        · intro _
          simp only [load] at h1 ⊢
          omega
      · cases hs
    · cases hs
  | loseRequest i =>
    simp only [step, Option.some.injEq] at hs
    subst hs
    have hcnt := count_erase_le (Prod.fst : Nat × K × D → Nat) n.sends i n.conn
    refine ⟨⟨h.base.len, fun x hx => h.base.tagS x (mem_erase hx), h.base.tagA, h.base.tagR, h.base.started, h.base.done⟩, ?_, ?_⟩
    · intro t rc hp
      obtain ⟨h1, e, h2, h3⟩ := h.cur t rc hp
      exact ⟨by simp only [load] at h1 ⊢; omega, e, h2, fun k d hkd => h3.sends k d (mem_erase hkd), h3.asking, h3.replies⟩
    · intro hk hw
      have h0 := h.quiet hk hw
      simp only [load] at h0 ⊢
      omega
  | loseReply j =>
    simp only [step, Option.some.injEq] at hs
    subst hs
    have hcnt := count_erase_le (Prod.fst : Nat × Option Err → Nat) n.replies j n.conn
    refine ⟨⟨h.base.len, h.base.tagS, h.base.tagA, fun x hx => h.base.tagR x (mem_erase hx), h.base.started, h.base.done⟩, ?_, ?_⟩
    · intro t rc hp
      obtain ⟨h1, e, h2, h3⟩ := h.cur t rc hp
      exact ⟨by simp only [load] at h1 ⊢; omega, e, h2, h3.sends, h3.asking, fun hr => h3.replies (mem_erase hr)⟩
    · intro hk hw
      have h0 := h.quiet hk hw
      simp only [load] at h0 ⊢
      omega
  | foreign k d =>
    simp only [step] at hs
    rw [Option.map_eq_some_iff] at hs
    obtain ⟨g, hg, rfl⟩ := hs
    obtain ⟨hadd, hcol⟩ := handler_arrive hg
    have hmono : ∀ e ∈ n.rcv.core.log, e ∈ g.core.log := fun e he => hadd.mem he
    split
    · rename_i hlen
      refine inv_rcv h ?_ hmono
      rcases hcol with hc | ⟨d', _, hc⟩
      · exact hc
      · rw [hc] at hlen; simp at hlen
    · rename_i hlen
      obtain ⟨d', hd', hceq⟩ : ∃ d', X.rcv.build d = some d' ∧ g.collecting = n.rcv.collecting ++ [(k, d')] := by
        rcases hcol with hc | hc
        · exact absurd (by rw [hc]) hlen
        · exact hc
      refine ⟨⟨by rw [hceq]; simp [h.base.len], h.base.tagS, ?_, h.base.tagR, h.base.started, fun k hk => (h.base.done k hk).mono (fun _ h => h) hmono⟩, ?_, ?_⟩
      · intro c' hc'
        rcases List.mem_append.mp hc' with hx | hx
        · exact h.base.tagA c' hx
        · simp at hx
      · intro t rc hp
        obtain ⟨h1, e, h2, h3⟩ := h.cur t rc hp
        refine ⟨?_, e, h2, h3.sends, ?_, ?_⟩
        · simp only [load, List.count_append, List.count_cons, List.count_nil, beq_iff_eq, reduceCtorEq, if_false] at h1 ⊢
          omega
        · intro j x hj hx
          simp only [hceq] at hx
          rcases get_append_one hj with hj' | ⟨hj', hcc⟩
          · rw [List.getElem?_append_left (by rw [← h.base.len]; exact (List.getElem?_eq_some_iff.mp hj').1)] at hx
            exact h3.asking j x hj' hx
          · cases hcc
        · intro hr
          obtain ⟨d', m, g1, g2⟩ := h3.replies hr
          exact ⟨d', m, g1, hmono _ g2⟩
      · intro hk hw
        have h0 := h.quiet hk hw
        simp only [load, List.count_append, List.count_cons, List.count_nil, beq_iff_eq, reduceCtorEq, if_false] at h0 ⊢
        omega
  | receiver l =>
    have n1 : ∀ k d, l ≠ .arrive k d := by rintro k d rfl; simp [step] at hs
    have n2 : ∀ i m, l ≠ .accept i m := by rintro k d rfl; simp [step] at hs
    have n3 : ∀ i, l ≠ .refuse i := by rintro k rfl; simp [step] at hs
    have hs' : (Handler.step X.rcv n.rcv l).map (fun s => { n with rcv := s }) = some n' := by
      cases l <;> first | exact hs | exact absurd rfl (n1 _ _) | exact absurd rfl (n2 _ _) | exact absurd rfl (n3 _)
    rw [Option.map_eq_some_iff] at hs'
    obtain ⟨g, hg, rfl⟩ := hs'
    obtain ⟨h1, h2⟩ := handler_other n1 n2 n3 hg
    exact inv_rcv h h1 h2.1

end Verif.Delivery
