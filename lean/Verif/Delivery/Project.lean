import Verif.Delivery.Invariant

/-!
# Each of the two applications behaves as it does alone
-/

set_option linter.unusedSectionVars false

namespace Verif.Delivery

open Verif.Py Verif.Buffered Verif.Client Verif.Queue Verif.Pending

variable {K D M S M' R' S' : Type} [DecidableEq K]

/-- No reply makes the client raise a cancellation. -/
def Civil (n : Net K D M S M' R' S') : Prop := ∀ x ∈ n.replies, x.2 ≠ some .base

/-- The event of the sender behind an event of the whole. -/
inductive SenderDoes (X : Setting K D M S M' R' S') (n : Net K D M S M' R' S') (l : Label K D M' R') : Sender.Label K D String → Prop where
  | own {l'} : l = .sender l' → (∀ t o, l' ≠ .finish t o) → SenderDoes X n l l'
  | over {t} {x : Except Err Unit} : (Civil n → Orderly X l → x ≠ .error .base) → SenderDoes X n l (.finish t (outcomeOf X.text x))

/-- The event of the endpoint behind an event of the whole. -/
inductive HandlerDoes (l : Label K D M' R') : Handler.Label K D M' R' → Prop where
  | own {l'} : l = .receiver l' → HandlerDoes l l'
  | arrive {k d} : HandlerDoes l (.arrive k d)
  | accept {i m} : HandlerDoes l (.accept i m)
  | refuse {i} : HandlerDoes l (.refuse i)

theorem settle_proj {X : Setting K D M S M' R' S'} {n n' : Net K D M S M' R' S'} {t : Nat} {x : Except Err Unit}
    (hs : settle X n t x = some n') :
    Sender.step X.snd n.snd (.finish t (outcomeOf X.text x)) = some n'.snd ∧ n'.rcv = n.rcv ∧ n'.replies = n.replies := by
  unfold settle at hs
  rw [Option.map_eq_some_iff] at hs
  obtain ⟨s', hst, rfl⟩ := hs
  exact ⟨hst, rfl, rfl⟩

theorem after_base {kind : Kind} {max rc : Int} {a : Attempt} (h : (after kind max rc a).1 = .over (.raised .base)) : a = .base := by
  cases a with
  | base => rfl
  | reply s => simp [after] at h
  | other => simp [after] at h
  | timeout => simp only [after] at h; split at h <;> simp at h
  | broken b =>
    cases kind <;> simp only [after] at h
    · split at h <;> simp at h
    · split at h
      · split at h <;> simp at h
      · simp at h
    · simp at h
  | empty b =>
    cases kind <;> simp only [after] at h
    · simp at h
    · split at h
      · split at h <;> simp at h
      · simp at h
    · simp at h

theorem fail_proj {X : Setting K D M S M' R' S'} {n n' : Net K D M S M' R' S'} {t : Nat} {rc : Int} {a : Attempt}
    (hs : fail X n t rc a = some n') :
    (n'.snd = n.snd ∨ ∃ e, Sender.step X.snd n.snd (.finish t (outcomeOf X.text (.error e : Except Err Unit))) = some n'.snd ∧ (e = .base → a = .base)) ∧
    n'.rcv = n.rcv ∧ n'.replies = n.replies := by
  unfold fail at hs
  split at hs
  · simp only [Option.some.injEq] at hs; subst hs; exact ⟨.inl rfl, rfl, rfl⟩
  · rename_i e he
    obtain ⟨h1, h2, h3⟩ := settle_proj hs
    exact ⟨.inr ⟨e, h1, fun hb => after_base (hb ▸ he)⟩, h2, h3⟩
  · cases hs

/-- Every event of the whole is at most one event of each application. -/
theorem step_proj {X : Setting K D M S M' R' S'} {n n' : Net K D M S M' R' S'} {l : Label K D M' R'} (hs : step X n l = some n') :
    (n'.snd = n.snd ∨ ∃ l', SenderDoes X n l l' ∧ Sender.step X.snd n.snd l' = some n'.snd) ∧
    (n'.rcv = n.rcv ∨ ∃ l', HandlerDoes l l' ∧ Handler.step X.rcv n.rcv l' = some n'.rcv) ∧ (Civil n → Civil n') := by
  cases l with
  | sender l =>
    have hnf : ∀ t o, l ≠ .finish t o := by
      rintro t o rfl; simp [step] at hs
    have hs' : (Sender.step X.snd n.snd l).map (fun s => { n with snd := s }) = some n' := by
      cases l <;> first | exact hs | exact absurd rfl (hnf _ _)
    rw [Option.map_eq_some_iff] at hs'
    obtain ⟨s', hst, rfl⟩ := hs'
    exact ⟨.inr ⟨l, .own rfl hnf, hst⟩, .inl rfl, id⟩
  | send t =>
    simp only [step] at hs
    split at hs
    · split at hs
      · simp only [Option.some.injEq] at hs; subst hs; exact ⟨.inl rfl, .inl rfl, id⟩
      · obtain ⟨h1, h2, h3⟩ := settle_proj hs
        exact ⟨.inr ⟨_, .over (fun _ _ => by simp), h1⟩, .inl h2, fun hc x hx => hc x (h3 ▸ hx)⟩
    · cases hs
  | transmit =>
    simp only [step] at hs
    split at hs
    · split at hs
      · simp only [Option.some.injEq] at hs; subst hs; exact ⟨.inl rfl, .inl rfl, id⟩
      · cases hs
    · cases hs
  | unsent a =>
    simp only [step] at hs
    split at hs
    · cases hs
    · obtain ⟨h1, h2, h3⟩ := fail_proj hs
      refine ⟨h1.imp id ?_, .inl h2, fun hc x hx => hc x (h3 ▸ hx)⟩
      rintro ⟨e, he, hb⟩
      exact ⟨_, .over (fun _ ho hx => by simp only [Except.error.injEq] at hx; exact ho (hb hx)), he⟩
    · cases hs
  | gone a =>
    simp only [step] at hs
    split at hs
    · cases hs
    · obtain ⟨h1, h2, h3⟩ := fail_proj hs
      refine ⟨h1.imp id ?_, .inl h2, fun hc x hx => hc x (h3 ▸ hx)⟩
      rintro ⟨e, he, hb⟩
      exact ⟨_, .over (fun _ ho hx => by simp only [Except.error.injEq] at hx; exact ho (hb hx)), he⟩
    · cases hs
  | arrive i er =>
    simp only [step] at hs
    split at hs
    · split at hs
      · rename_i hcond
        rw [Option.map_eq_some_iff] at hs
        obtain ⟨g, hg, rfl⟩ := hs
        split
        · refine ⟨.inl rfl, .inr ⟨_, .arrive, hg⟩, fun hc x hx => ?_⟩
          rcases List.mem_append.mp hx with hx | hx
          · exact hc x hx
          · simp only [List.mem_singleton] at hx; subst hx
            simpa using hcond.1
        · exact ⟨.inl rfl, .inr ⟨_, .arrive, hg⟩, id⟩
      · cases hs
    · cases hs
  | accept i m =>
    simp only [step] at hs
    split at hs
    · rw [Option.map_eq_some_iff] at hs
      obtain ⟨g, hg, rfl⟩ := hs
      refine ⟨.inl rfl, .inr ⟨_, .accept, hg⟩, fun hc x hx => ?_⟩
      rcases List.mem_append.mp hx with hx | hx
      · exact hc x hx
      · obtain ⟨c, _, rfl⟩ := List.mem_map.mp hx
        simp
    · cases hs
  | refuse i er =>
    simp only [step] at hs
    split at hs
    · split at hs
      · rename_i hne
        rw [Option.map_eq_some_iff] at hs
        obtain ⟨g, hg, rfl⟩ := hs
        refine ⟨.inl rfl, .inr ⟨_, .refuse, hg⟩, fun hc x hx => ?_⟩
        rcases List.mem_append.mp hx with hx | hx
        · exact hc x hx
        · obtain ⟨c, _, rfl⟩ := List.mem_map.mp hx
          simpa using hne
      · cases hs
    · cases hs
  | read j =>
    simp only [step] at hs
    split at hs
    · rename_i t rc c a hp hj
      split at hs
      · obtain ⟨h1, h2, h3⟩ := settle_proj hs
        refine ⟨.inr ⟨_, .over (fun hc _ hx => ?_), h1⟩, .inl h2, fun hc x hx => hc x (mem_erase (h3 ▸ hx))⟩
        cases a with
        | none => cases hx
        | some e =>
          simp only [Except.error.injEq] at hx
          exact hc _ (List.mem_of_getElem? hj) (by rw [hx])
      · cases hs
    · cases hs
  | loseRequest i =>
    simp only [step, Option.some.injEq] at hs; subst hs
    exact ⟨.inl rfl, .inl rfl, id⟩
  | loseReply j =>
    simp only [step, Option.some.injEq] at hs; subst hs
    exact ⟨.inl rfl, .inl rfl, fun hc x hx => hc x (mem_erase hx)⟩
  | foreign k d =>
    simp only [step] at hs
    rw [Option.map_eq_some_iff] at hs
    obtain ⟨g, hg, rfl⟩ := hs
    split
    · exact ⟨.inl rfl, .inr ⟨_, .arrive, hg⟩, id⟩
    · exact ⟨.inl rfl, .inr ⟨_, .arrive, hg⟩, id⟩
  | receiver l =>
    have n1 : ∀ k d, l ≠ .arrive k d := by rintro k d rfl; simp [step] at hs
    have n2 : ∀ i m, l ≠ .accept i m := by rintro k d rfl; simp [step] at hs
    have n3 : ∀ i, l ≠ .refuse i := by rintro k rfl; simp [step] at hs
    have hs' : (Handler.step X.rcv n.rcv l).map (fun s => { n with rcv := s }) = some n' := by
      cases l <;> first | exact hs | exact absurd rfl (n1 _ _) | exact absurd rfl (n2 _ _) | exact absurd rfl (n3 _)
    rw [Option.map_eq_some_iff] at hs'
    obtain ⟨g, hg, rfl⟩ := hs'
    exact ⟨.inl rfl, .inr ⟨l, .own rfl, hg⟩, id⟩

theorem civil {X : Setting K D M S M' R' S'} {P n} (h : NReach X P n) : Civil n := by
  induction h with
  | start => intro x hx; cases hx
  | step _ _ hs ih => exact (step_proj hs).2.2 ih

/-- The sender alone. -/
theorem NReach.sender {X : Setting K D M S M' R' S'} {P n} (h : NReach X P n) : SReach X.snd Any n.snd := by
  induction h with
  | start hq hq' => exact .setup hq
  | step _ _ hs ih =>
    rcases (step_proj hs).1 with e | ⟨l', _, hl⟩
    · rw [e]; exact ih
    · exact .step ih trivial hl

/-- The endpoint alone. -/
theorem NReach.handler {X : Setting K D M S M' R' S'} {P n} (h : NReach X P n) : HReach X.rcv Any n.rcv := by
  induction h with
  | start hq hq' => exact .setup hq'
  | step _ _ hs ih =>
    rcases (step_proj hs).2.1 with e | ⟨l', _, hl⟩
    · rw [e]; exact ih
    · exact .step ih trivial hl

theorem raise_outcome {text : Err → String} {x : Except Err Unit} (h : outcomeOf text x = .raise) : x = .error .base := by
  cases x with
  | ok u => simp [outcomeOf] at h
  | error e => cases e <;> simp [outcomeOf] at h ⊢

/-- The sender alone, when nothing is cancelled. -/
theorem NReach.senderOrderly {X : Setting K D M S M' R' S'} {P n} (hP : ∀ l, P l → Orderly X l) (h : NReach X P n) :
    SReach X.snd (NoCancel X.snd) n.snd := by
  induction h with
  | start hq hq' => exact .setup hq
  | step hr hp hs ih =>
    rename_i n l n'
    rcases (step_proj hs).1 with e | ⟨l', hd, hl⟩
    · rw [e]; exact ih
    · refine .step ih ?_ hl
      cases hd with
      | own he hn =>
        subst he
        refine ⟨fun t => hn t _, ?_⟩
        rintro k d rfl
        exact hP _ hp
      | over hx =>
        refine ⟨fun t ht => ?_, fun k d hk => by cases hk⟩
        simp only [Sender.Label.finish.injEq] at ht
        exact hx (civil hr) (hP _ hp) (raise_outcome ht.2)

/-- The endpoint alone, when handlers do not raise. -/
theorem NReach.handlerOrderly {X : Setting K D M S M' R' S'} {P n} (hP : ∀ l, P l → Orderly X l) (h : NReach X P n) :
    HReach X.rcv NoRaise n.rcv := by
  induction h with
  | start hq hq' => exact .setup hq'
  | step hr hp hs ih =>
    rename_i n l n'
    rcases (step_proj hs).2.1 with e | ⟨l', hd, hl⟩
    · rw [e]; exact ih
    · refine .step ih ?_ hl
      cases hd with
      | own he =>
        subst he
        rintro t rfl
        exact hP _ hp rfl
      | arrive => intro t ht; cases ht
      | accept => intro t ht; cases ht
      | refuse => intro t ht; cases ht

theorem NReach.inv {X : Setting K D M S M' R' S'} {P n} (hP : ∀ l, P l → Safe X.kind l) (h : NReach X P n) : NInv X n := by
  induction h with
  | start hq hq' =>
    rename_i q q'
    have hlog : handled (Sender.setup X.snd q).log = [] := by
      have : (Sender.setup X.snd q).log = (St.init X.snd q).log := by simp [Sender.setup, St.unpause, check_log]
      rw [this]
      simp only [St.init]
      rw [handled_append]
      have h1 : ∀ l : List (PEntry K D M), handled (l.map (Ev.found (R := String))) = [] := by
        intro l; induction l with
        | nil => rfl
        | cons x l ih => exact ih
      have h2 : ∀ l : List (EEntry K D M String), handled (l.map (Ev.foundFailed)) = [] := by
        intro l; induction l with
        | nil => rfl
        | cons x l ih => exact ih
      rw [h1, h2]; rfl
    have htasks : ∀ (t : Nat) e, (Sender.setup X.snd q).tasks[t]? ≠ some (.inFlight e) := by
      intro t e ht
      have h1 : (Sender.setup X.snd q).tasks = [.scheduled] ∨ (Sender.setup X.snd q).tasks = [.scheduled, .scheduled] ∨ (Sender.setup X.snd q).tasks = [] := by
        unfold Sender.setup St.unpause
        rcases check_tasks ({ St.init X.snd q with paused := false }) with e1 | e1 <;>
          rcases check_tasks ({ St.init X.snd q with paused := false } : St K D M String S).check with e2 | e2 <;> rw [e2, e1] <;> simp [St.init]
      have hm := List.mem_of_getElem? ht
      rcases h1 with e1 | e1 | e1 <;> rw [e1] at hm <;> simp at hm
    refine ⟨⟨rfl, fun x hx => (by cases hx), fun x hx => (by cases hx), fun x hx => (by cases hx), fun t e ht => absurd ht (htasks t e), ?_⟩,
      fun t rc hp => (by cases hp), fun _ _ => rfl⟩
    intro k hk
    have : handled (Net.start X q q').snd.log = [] := hlog
    rw [this] at hk
    cases hk
  | step _ hp hs ih => exact inv_step ih (hP _ hp) hs

end Verif.Delivery
