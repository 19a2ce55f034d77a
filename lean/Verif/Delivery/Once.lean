import Verif.Delivery.Project

/-!
# The invariant behind C77: without disturbances the endpoint's acceptances follow the sender's successes
-/

set_option linter.unusedSectionVars false

namespace Verif.Delivery

open Verif.Py Verif.Buffered Verif.Client Verif.Queue Verif.Pending

variable {K D M S M' R' S' : Type} [DecidableEq K]

/-- Everything under way. -/
def total (n : Net K D M S M' R' S') : Nat := n.sends.length + n.asking.length + n.replies.length

/-- Acceptances and successes agree, but for a message whose acceptance the sender has not heard of. -/
structure Once (n : Net K D M S M' R' S') : Prop where
  quiet : (∀ t rc, n.phase ≠ .waiting t rc) → total n = 0 ∧ ∀ k, copies k n.rcv.core.log ≤ (handled n.snd.log).count k
  cur : ∀ t rc, n.phase = .waiting t rc → total n ≤ 1 ∧ (∀ x ∈ n.sends, x.1 = n.conn) ∧ (∀ x ∈ n.asking, x = some n.conn) ∧
    (∀ x ∈ n.replies, x.1 = n.conn) ∧
    ∃ e, n.snd.tasks[t]? = some (.inFlight e) ∧
      (∀ k, copies k n.rcv.core.log ≤ (handled n.snd.log).count k + if e.key = k then 1 else 0) ∧
      (n.sends ≠ [] ∨ n.asking ≠ [] ∨ (∃ c er, (c, some er) ∈ n.replies) → ∀ k, copies k n.rcv.core.log ≤ (handled n.snd.log).count k)

theorem undisturbed_safe {kind : Kind} {l : Label K D M' R'} (h : Undisturbed l) : Safe kind l := by
  cases l <;> first | exact .inr trivial | exact absurd h id

theorem once_settle {X : Setting K D M S M' R' S'} {n n' : Net K D M S M' R' S'} {t : Nat} {x : Except Err Unit}
    (h0 : total n = 0) {e} (ht : n.snd.tasks[t]? = some (.inFlight e))
    (hc : ∀ k, copies k n.rcv.core.log ≤ (handled n.snd.log).count k + if x = .ok () ∧ e.key = k then 1 else 0)
    (hs : settle X n t x = some n') : Once n' := by
  unfold settle at hs
  rw [Option.map_eq_some_iff] at hs
  obtain ⟨s', hst, rfl⟩ := hs
  obtain ⟨e', ht', hh, _, _⟩ := attempt_over hst
  rw [ht] at ht'
  cases ht'
  refine ⟨fun _ => ⟨h0, fun k => ?_⟩, fun t' rc' hp => by cases hp⟩
  have := hc k
  simp only [hh]
  by_cases ho : isOk (outcomeOf X.text x) = true
  · rw [if_pos ho, List.count_cons]
    simp only [beq_iff_eq]
    have hx := outcome_ok.mp ho
    simp only [hx, true_and] at this
    exact this
  · rw [if_neg ho]
    have hx : x ≠ .ok () := fun h => ho (outcome_ok.mpr h)
    simpa only [hx, false_and, if_false, Nat.add_zero] using this

theorem total_zero {n : Net K D M S M' R' S'} (h : total n = 0) : n.sends = [] ∧ n.asking = [] ∧ n.replies = [] := by
  unfold total at h
  exact ⟨List.length_eq_zero_iff.mp (by omega), List.length_eq_zero_iff.mp (by omega), List.length_eq_zero_iff.mp (by omega)⟩

/-- What the sender counts as in flight is not touched by a failed try before writing. -/
theorem once_step {X : Setting K D M S M' R' S'} {n n' : Net K D M S M' R' S'} {l : Label K D M' R'} (h : Once n) (hi : NInv X n)
    (hready : ∀ t rc, n.phase = .ready t rc → ∃ e, n.snd.tasks[t]? = some (.inFlight e))
    (hl : Undisturbed l) (hs : step X n l = some n') : Once n' := by
  cases l with
  | sender l =>
    have hnf : ∀ t o, l ≠ .finish t o := by
      rintro t o rfl; simp [step] at hs
    have hs' : (Sender.step X.snd n.snd l).map (fun s => { n with snd := s }) = some n' := by
      cases l <;> first | exact hs | exact absurd rfl (hnf _ _)
    rw [Option.map_eq_some_iff] at hs'
    obtain ⟨s', hst, rfl⟩ := hs'
    obtain ⟨h1, h2, h3, h4⟩ := sender_same hnf hst
    refine ⟨fun hw => ?_, fun t rc hp => ?_⟩
    · obtain ⟨g1, g2⟩ := h.quiet hw
      exact ⟨g1, fun k => by simp only [h1]; exact g2 k⟩
    · obtain ⟨g1, g2, g3, g4, e, g5, g6, g7⟩ := h.cur t rc hp
      exact ⟨g1, g2, g3, g4, e, h3 t e g5, fun k => by simp only [h1]; exact g6 k, fun hx k => by simp only [h1]; exact g7 hx k⟩
  | send t =>
    simp only [step] at hs
    split at hs
    · rename_i e hp ht
      obtain ⟨g1, g2⟩ := h.quiet (by rw [hp]; simp)
      split at hs
      · simp only [Option.some.injEq] at hs
        subst hs
        exact ⟨fun _ => ⟨g1, g2⟩, fun t rc hp => by cases hp⟩
      · exact once_settle g1 ht (fun k => by have := g2 k; simp only [reduceCtorEq, false_and, if_false]; omega) hs
    · cases hs
  | transmit =>
    simp only [step] at hs
    split at hs
    · rename_i t rc hp
      split at hs
      · rename_i e ht
        simp only [Option.some.injEq] at hs
        subst hs
        obtain ⟨g1, g2⟩ := h.quiet (by rw [hp]; simp)
        obtain ⟨z1, z2, z3⟩ := total_zero g1
        refine ⟨fun hw => absurd rfl (hw t rc), fun t' rc' hp' => ?_⟩
        simp only [Phase.waiting.injEq] at hp'
        obtain ⟨rfl, rfl⟩ := hp'
        refine ⟨by simp [total, z1, z2, z3], by simp [z1], by simp [z2], by simp [z3], e, ht, fun k => ?_, fun _ k => g2 k⟩
        have := g2 k
        exact Nat.le_add_right_of_le this
      · cases hs
    · cases hs
  | unsent a =>
    simp only [step] at hs
    split at hs
    · cases hs
    · rename_i t rc hp ha
      obtain ⟨g1, g2⟩ := h.quiet (by rw [hp]; simp)
      obtain ⟨e, ht⟩ := hready t rc hp
      have key : ∀ c er, settle X { n with conn := c } t (.error er) = some n' → Once n' := fun c er hs =>
        once_settle (n := { n with conn := c }) g1 ht (fun k => by have := g2 k; simp only [reduceCtorEq, false_and, if_false]; omega) hs
      unfold fail at hs
      split at hs
      · simp only [Option.some.injEq] at hs
        subst hs
        exact ⟨fun _ => ⟨g1, g2⟩, fun t rc hp => by cases hp⟩
      · exact key _ _ hs
      · cases hs
    · cases hs
  | gone a => exact absurd hl id
  | arrive i er =>
    simp only [step] at hs
    split at hs
    · rename_i c k d hidx
      split at hs
      · rw [Option.map_eq_some_iff] at hs
        obtain ⟨g, hg, rfl⟩ := hs
        obtain ⟨hadd, hcol⟩ := handler_arrive hg
        have hlt := (List.getElem?_eq_some_iff.mp hidx).1
        have hmem := List.mem_of_getElem? hidx
        have hne : n.sends ≠ [] := fun h0 => by rw [h0] at hmem; cases hmem
        have hlen : (n.sends.eraseIdx i).length + 1 = n.sends.length := by
          rw [List.length_eraseIdx, if_pos hlt]; omega
        by_cases hw : ∀ t rc, n.phase ≠ .waiting t rc
        · obtain ⟨g1, _⟩ := h.quiet hw
          exact absurd (total_zero g1).1 hne
        · simp only [not_forall, not_not] at hw
          obtain ⟨t, rc, hp⟩ := hw
          obtain ⟨g1, g2, g3, g4, e, g5, g6, g7⟩ := h.cur t rc hp
          have g7' := g7 (.inl hne)
          split
          · refine ⟨fun hw => absurd hp (hw t rc), fun t' rc' hp' => ?_⟩
            simp only [hp, Phase.waiting.injEq] at hp'
            obtain ⟨rfl, rfl⟩ := hp'
            refine ⟨?_, fun x hx => g2 x (mem_erase hx), g3, ?_, e, g5, fun k => ?_, fun _ k => ?_⟩
            · simp only [total, List.length_append, List.length_singleton] at g1 ⊢; omega
            · intro x hx
              rcases List.mem_append.mp hx with hx | hx
              · exact g4 x hx
              · simp only [List.mem_singleton] at hx; subst hx; exact g2 _ hmem
            · simp only [hadd.copies]; exact g6 k
            · simp only [hadd.copies]; exact g7' k
          · refine ⟨fun hw => absurd hp (hw t rc), fun t' rc' hp' => ?_⟩
            simp only [hp, Phase.waiting.injEq] at hp'
            obtain ⟨rfl, rfl⟩ := hp'
            refine ⟨?_, fun x hx => g2 x (mem_erase hx), ?_, g4, e, g5, fun k => ?_, fun _ k => ?_⟩
            · simp only [total, List.length_append, List.length_singleton] at g1 ⊢; omega
            · intro x hx
              rcases List.mem_append.mp hx with hx | hx
              · exact g3 x hx
              · simp only [List.mem_singleton] at hx; subst hx; rw [show c = n.conn from g2 _ hmem]
            · simp only [hadd.copies]; exact g6 k
            · simp only [hadd.copies]; exact g7' k
      · cases hs
    · cases hs
  | accept i m =>
    simp only [step] at hs
    split at hs
    · rename_i o hidx
      rw [Option.map_eq_some_iff] at hs
      obtain ⟨g, hg, rfl⟩ := hs
      obtain ⟨k, d, hki, hcol, hlog⟩ := handler_accept hg
      have hlt := (List.getElem?_eq_some_iff.mp hidx).1
      have hmem := List.mem_of_getElem? hidx
      have hne : n.asking ≠ [] := fun h0 => by rw [h0] at hmem; cases hmem
      have hlen : (n.asking.eraseIdx i).length + 1 = n.asking.length := by
        rw [List.length_eraseIdx, if_pos hlt]; omega
      by_cases hw : ∀ t rc, n.phase ≠ .waiting t rc
      · obtain ⟨g1, _⟩ := h.quiet hw
        exact absurd (total_zero g1).2.1 hne
      · simp only [not_forall, not_not] at hw
        obtain ⟨t, rc, hp⟩ := hw
        obtain ⟨g1, g2, g3, g4, e, g5, g6, g7⟩ := h.cur t rc hp
        have g7' := g7 (.inr (.inl hne))
        obtain ⟨_, e', ht', hmine⟩ := hi.cur t rc hp
        rw [g5] at ht'
        cases ht'
        have ho : o = some n.conn := g3 _ hmem
        subst ho
        have hkey : k = e.key := (hmine.asking i (k, d) hidx hki).1
        subst hkey
        have z1 : n.sends = [] ∧ n.replies = [] ∧ n.asking.eraseIdx i = [] := by
          unfold total at g1
          exact ⟨List.length_eq_zero_iff.mp (by omega), List.length_eq_zero_iff.mp (by omega), List.length_eq_zero_iff.mp (by omega)⟩
        refine ⟨fun hw => absurd hp (hw t rc), fun t' rc' hp' => ?_⟩
        simp only [hp, Phase.waiting.injEq] at hp'
        obtain ⟨rfl, rfl⟩ := hp'
        refine ⟨?_, g2, fun x hx => g3 x (mem_erase hx), ?_, e, g5, fun k' => ?_, ?_⟩
        · simp [total, z1]
        · simp [z1]
        · simp only [hlog, copies]
          have := g7' k'
          split <;> omega
        · simp [z1]
    · cases hs
  | refuse i er =>
    simp only [step] at hs
    split at hs
    · rename_i o hidx
      split at hs
      · rw [Option.map_eq_some_iff] at hs
        obtain ⟨g, hg, rfl⟩ := hs
        obtain ⟨_, hcol, hadd⟩ := handler_refuse hg
        have hlt := (List.getElem?_eq_some_iff.mp hidx).1
        have hmem := List.mem_of_getElem? hidx
        have hne : n.asking ≠ [] := fun h0 => by rw [h0] at hmem; cases hmem
        have hlen : (n.asking.eraseIdx i).length + 1 = n.asking.length := by
          rw [List.length_eraseIdx, if_pos hlt]; omega
        by_cases hw : ∀ t rc, n.phase ≠ .waiting t rc
        · obtain ⟨g1, _⟩ := h.quiet hw
          exact absurd (total_zero g1).2.1 hne
        · simp only [not_forall, not_not] at hw
          obtain ⟨t, rc, hp⟩ := hw
          obtain ⟨g1, g2, g3, g4, e, g5, g6, g7⟩ := h.cur t rc hp
          have g7' := g7 (.inr (.inl hne))
          have ho : o = some n.conn := g3 _ hmem
          subst ho
          refine ⟨fun hw => absurd hp (hw t rc), fun t' rc' hp' => ?_⟩
          simp only [hp, Phase.waiting.injEq] at hp'
          obtain ⟨rfl, rfl⟩ := hp'
          refine ⟨?_, g2, fun x hx => g3 x (mem_erase hx), ?_, e, g5, fun k => ?_, fun _ k => ?_⟩
          · simp only [total, Option.toList_some, List.map_cons, List.map_nil, List.length_append, List.length_singleton] at g1 ⊢; omega
          · intro x hx
            rcases List.mem_append.mp hx with hx | hx
            · exact g4 x hx
            · simp only [Option.toList_some, List.map_cons, List.map_nil, List.mem_singleton] at hx; subst hx; rfl
          · simp only [hadd.copies]; exact g6 k
          · simp only [hadd.copies]; exact g7' k
      · cases hs
    · cases hs
  | read j =>
    simp only [step] at hs
    split at hs
    · rename_i t rc c a hp hj
      split at hs
      · obtain ⟨g1, g2, g3, g4, e, g5, g6, g7⟩ := h.cur t rc hp
        have hlt := (List.getElem?_eq_some_iff.mp hj).1
        have hlen : (n.replies.eraseIdx j).length + 1 = n.replies.length := by
          rw [List.length_eraseIdx, if_pos hlt]; omega
        refine once_settle (n := { n with replies := n.replies.eraseIdx j }) (by simp only [total] at g1 ⊢; omega) g5 (fun k => ?_) hs
        cases a with
        | none => simpa using g6 k
        | some er =>
          have := g7 (.inr (.inr ⟨c, er, List.mem_of_getElem? hj⟩)) k
          simp only [reduceCtorEq, false_and, if_false]
          omega
      · cases hs
    · cases hs
  | loseRequest i =>
    simp only [step, Option.some.injEq] at hs
    subst hs
    have hle := List.length_eraseIdx_le n.sends i
    refine ⟨fun hw => ?_, fun t rc hp => ?_⟩
    · obtain ⟨g1, g2⟩ := h.quiet hw
      exact ⟨by simp only [total] at g1 ⊢; omega, g2⟩
    · obtain ⟨g1, g2, g3, g4, e, g5, g6, g7⟩ := h.cur t rc hp
      refine ⟨by simp only [total] at g1 ⊢; omega, fun x hx => g2 x (mem_erase hx), g3, g4, e, g5, g6, fun hx => g7 ?_⟩
      rcases hx with hx | hx
      · exact .inl fun h0 => hx (by rw [h0]; rfl)
      · exact .inr hx
  | loseReply j =>
    simp only [step, Option.some.injEq] at hs
    subst hs
    have hle := List.length_eraseIdx_le n.replies j
    refine ⟨fun hw => ?_, fun t rc hp => ?_⟩
    · obtain ⟨g1, g2⟩ := h.quiet hw
      exact ⟨by simp only [total] at g1 ⊢; omega, g2⟩
    · obtain ⟨g1, g2, g3, g4, e, g5, g6, g7⟩ := h.cur t rc hp
      refine ⟨by simp only [total] at g1 ⊢; omega, g2, g3, fun x hx => g4 x (mem_erase hx), e, g5, g6, fun hx => g7 ?_⟩
      rcases hx with hx | hx | ⟨c, er, hx⟩
      · exact .inl hx
      · exact .inr (.inl hx)
      · exact .inr (.inr ⟨c, er, mem_erase hx⟩)
  | foreign k d => exact absurd hl id
  | receiver l =>
    have n1 : ∀ k d, l ≠ .arrive k d := by rintro k d rfl; simp [step] at hs
    have n2 : ∀ i m, l ≠ .accept i m := by rintro k d rfl; simp [step] at hs
    have n3 : ∀ i, l ≠ .refuse i := by rintro k rfl; simp [step] at hs
    have hs' : (Handler.step X.rcv n.rcv l).map (fun s => { n with rcv := s }) = some n' := by
      cases l <;> first | exact hs | exact absurd rfl (n1 _ _) | exact absurd rfl (n2 _ _) | exact absurd rfl (n3 _)
    rw [Option.map_eq_some_iff] at hs'
    obtain ⟨g, hg, rfl⟩ := hs'
    obtain ⟨_, h2⟩ := handler_other n1 n2 n3 hg
    refine ⟨fun hw => ?_, fun t rc hp => ?_⟩
    · obtain ⟨g1, g2⟩ := h.quiet hw
      exact ⟨g1, fun k => by simp only [h2.2]; exact g2 k⟩
    · obtain ⟨g1, g2, g3, g4, e, g5, g6, g7⟩ := h.cur t rc hp
      exact ⟨g1, g2, g3, g4, e, g5, fun k => by simp only [h2.2]; exact g6 k, fun hx k => by simp only [h2.2]; exact g7 hx k⟩

/-- A `send_message` in its loop belongs to a message in flight. -/
theorem ready_step {X : Setting K D M S M' R' S'} {n n' : Net K D M S M' R' S'} {l : Label K D M' R'}
    (h : ∀ t rc, n.phase = .ready t rc ∨ n.phase = .waiting t rc → ∃ e, n.snd.tasks[t]? = some (.inFlight e))
    (hs : step X n l = some n') : ∀ t rc, n'.phase = .ready t rc ∨ n'.phase = .waiting t rc → ∃ e, n'.snd.tasks[t]? = some (.inFlight e) := by
  have hset : ∀ {m : Net K D M S M' R' S'} {t : Nat} {x}, settle X m t x = some n' → n'.phase = .idle := by
    intro m t x hm
    unfold settle at hm
    rw [Option.map_eq_some_iff] at hm
    obtain ⟨s', _, rfl⟩ := hm
    rfl
  have idle : n'.phase = .idle → ∀ t rc, n'.phase = .ready t rc ∨ n'.phase = .waiting t rc → ∃ e, n'.snd.tasks[t]? = some (.inFlight e) := by
    intro hp t rc hx; rw [hp] at hx; simp at hx
  have hfail : ∀ {t : Nat} {rc : Int} {a : Attempt}, (∃ e, n.snd.tasks[t]? = some (.inFlight e)) → fail X n t rc a = some n' →
      ∀ t rc, n'.phase = .ready t rc ∨ n'.phase = .waiting t rc → ∃ e, n'.snd.tasks[t]? = some (.inFlight e) := by
    intro t rc a ht hf
    unfold fail at hf
    split at hf
    · simp only [Option.some.injEq] at hf
      subst hf
      intro t' rc' hx
      simp only [Phase.ready.injEq, reduceCtorEq, or_false] at hx
      rw [← hx.1]; exact ht
    · exact idle (hset hf)
    · cases hf
  cases l with
  | sender l =>
    have hnf : ∀ t o, l ≠ .finish t o := by
      rintro t o rfl; simp [step] at hs
    have hs' : (Sender.step X.snd n.snd l).map (fun s => { n with snd := s }) = some n' := by
      cases l <;> first | exact hs | exact absurd rfl (hnf _ _)
    rw [Option.map_eq_some_iff] at hs'
    obtain ⟨s', hst, rfl⟩ := hs'
    obtain ⟨_, _, h3, _⟩ := sender_same hnf hst
    intro t rc hx
    obtain ⟨e, he⟩ := h t rc hx
    exact ⟨e, h3 t e he⟩
  | send t =>
    simp only [step] at hs
    split at hs
    · rename_i e hp ht
      split at hs
      · simp only [Option.some.injEq] at hs
        subst hs
        intro t' rc' hx
        simp only [Phase.ready.injEq, reduceCtorEq, or_false] at hx
        rw [← hx.1]; exact ⟨e, ht⟩
      · exact idle (hset hs)
    · cases hs
  | transmit =>
    simp only [step] at hs
    split at hs
    · rename_i t rc hp
      split at hs
      · rename_i e ht
        simp only [Option.some.injEq] at hs
        subst hs
        intro t' rc' hx
        simp only [Phase.waiting.injEq, reduceCtorEq, false_or] at hx
        rw [← hx.1]; exact ⟨e, ht⟩
      · cases hs
    · cases hs
  | unsent a =>
    simp only [step] at hs
    split at hs
    · cases hs
    · rename_i t rc hp ha
      exact hfail (h t rc (.inl hp)) hs
    · cases hs
  | gone a =>
    simp only [step] at hs
    split at hs
    · cases hs
    · rename_i t rc hp ha
      exact hfail (h t rc (.inr hp)) hs
    · cases hs
  | arrive i er =>
    simp only [step] at hs
    split at hs
    · split at hs
      · rw [Option.map_eq_some_iff] at hs
        obtain ⟨g, hg, rfl⟩ := hs
        split <;> exact h
      · cases hs
    · cases hs
  | accept i m =>
    simp only [step] at hs
    split at hs
    · rw [Option.map_eq_some_iff] at hs
      obtain ⟨g, hg, rfl⟩ := hs
      exact h
    · cases hs
  | refuse i er =>
    simp only [step] at hs
    split at hs
    · split at hs
      · rw [Option.map_eq_some_iff] at hs
        obtain ⟨g, hg, rfl⟩ := hs
        exact h
      · cases hs
    · cases hs
  | read j =>
    simp only [step] at hs
    split at hs
    · split at hs
      · exact idle (hset hs)
      · cases hs
    · cases hs
  | loseRequest i => simp only [step, Option.some.injEq] at hs; subst hs; exact h
  | loseReply j => simp only [step, Option.some.injEq] at hs; subst hs; exact h
  | foreign k d =>
    simp only [step] at hs
    rw [Option.map_eq_some_iff] at hs
    obtain ⟨g, hg, rfl⟩ := hs
    split <;> exact h
  | receiver l =>
    have n1 : ∀ k d, l ≠ .arrive k d := by rintro k d rfl; simp [step] at hs
    have n2 : ∀ i m, l ≠ .accept i m := by rintro k d rfl; simp [step] at hs
    have n3 : ∀ i, l ≠ .refuse i := by rintro k rfl; simp [step] at hs
    have hs' : (Handler.step X.rcv n.rcv l).map (fun s => { n with rcv := s }) = some n' := by
      cases l <;> first | exact hs | exact absurd rfl (n1 _ _) | exact absurd rfl (n2 _ _) | exact absurd rfl (n3 _)
    rw [Option.map_eq_some_iff] at hs'
    obtain ⟨g, hg, rfl⟩ := hs'
    exact h

theorem NReach.ready {X : Setting K D M S M' R' S'} {P n} (h : NReach X P n) :
    ∀ t rc, n.phase = .ready t rc ∨ n.phase = .waiting t rc → ∃ e, n.snd.tasks[t]? = some (.inFlight e) := by
  induction h with
  | start => intro t rc hx; simp [Net.start] at hx
  | step _ _ hs ih => exact ready_step ih hs

theorem copies_setup (cfg : Buffered.Cfg K D M' R' S') (q : Pair K S') (k : K) : copies k (Handler.setup cfg q).core.log = 0 := by
  have : (Handler.setup cfg q).core.log = (St.init cfg q).log := by simp [Handler.setup, St.unpause, check_log]
  rw [this]
  simp only [St.init]
  rw [copies_append]
  have h1 : ∀ l : List (PEntry K D M'), copies k (l.map (Ev.found (R := R'))) = 0 := by
    intro l; induction l with
    | nil => rfl
    | cons x l ih => exact ih
  have h2 : ∀ l : List (EEntry K D M' R'), copies k (l.map (Ev.foundFailed)) = 0 := by
    intro l; induction l with
    | nil => rfl
    | cons x l ih => exact ih
  rw [h1, h2]

theorem NReach.once {X : Setting K D M S M' R' S'} {P n} (hP : ∀ l, P l → Undisturbed l) (h : NReach X P n) : Once n := by
  induction h with
  | start hq hq' =>
    rename_i q q'
    refine ⟨fun _ => ⟨rfl, fun k => ?_⟩, fun t rc hp => by cases hp⟩
    have : copies k (Net.start X q q').rcv.core.log = 0 := copies_setup X.rcv q' k
    omega
  | step hr hp hs ih =>
    exact once_step ih (hr.inv fun l hl => undisturbed_safe (hP l hl)) (fun t rc hx => hr.ready t rc (.inl hx)) (hP _ hp) hs

end Verif.Delivery
