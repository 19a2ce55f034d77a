import Verif.Delivery.Spec
import Verif.Buffered.Props

/-!
# Lemmas about a sender and an endpoint together
-/

set_option linter.unusedSectionVars false

namespace Verif.Delivery

open Verif.Py Verif.Buffered Verif.Client Verif.Queue Verif.Pending

/-! ### logs -/

section logs

variable {K D M R S : Type} [DecidableEq K]

/-- The log grew by events that are neither successes nor acceptances. -/
def Adds (l l' : List (Ev K D M R)) : Prop := ∃ new, l' = new ++ l ∧ handled new = [] ∧ ∀ k, copies k new = 0

theorem Adds.refl (l : List (Ev K D M R)) : Adds l l := ⟨[], rfl, rfl, fun _ => rfl⟩

theorem handled_append (a b : List (Ev K D M R)) : handled (a ++ b) = handled a ++ handled b := by
  induction a with
  | nil => rfl
  | cons x a ih => cases x <;> simp [handled, ih]

theorem copies_append (k : K) (a b : List (Ev K D M R)) : copies k (a ++ b) = copies k a + copies k b := by
  induction a with
  | nil => simp [copies]
  | cons x a ih => cases x <;> simp only [List.cons_append, copies, ih] ; split <;> omega

theorem Adds.trans {a b c : List (Ev K D M R)} (h : Adds a b) (h' : Adds b c) : Adds a c := by
  obtain ⟨x, rfl, h1, h2⟩ := h
  obtain ⟨y, rfl, h3, h4⟩ := h'
  refine ⟨y ++ x, by simp, by simp [handled_append, h1, h3], fun k => by rw [copies_append, h2, h4]⟩

theorem Adds.handled {a b : List (Ev K D M R)} (h : Adds a b) : handled b = handled a := by
  obtain ⟨x, rfl, h1, _⟩ := h; simp [handled_append, h1]

theorem Adds.copies {a b : List (Ev K D M R)} (h : Adds a b) (k : K) : copies k b = copies k a := by
  obtain ⟨x, rfl, _, h2⟩ := h; rw [copies_append, h2]; omega

theorem Adds.mem {a b : List (Ev K D M R)} (h : Adds a b) {e} (he : e ∈ a) : e ∈ b := by
  obtain ⟨x, rfl, _⟩ := h; exact List.mem_append_right _ he

theorem shutDownCheck_same (s : St K D M R S) : s.shutDownCheck.log = s.log ∧ s.shutDownCheck.tasks = s.tasks := by
  unfold St.shutDownCheck; split <;> exact ⟨rfl, rfl⟩

theorem endTask_same (s : St K D M R S) (t : Nat) : (s.endTask t).log = s.log ∧ (s.endTask t).tasks = s.tasks.set t .done := by
  unfold St.endTask; exact shutDownCheck_same _

theorem check_log (s : St K D M R S) : s.check.log = s.log := by
  unfold St.check; split <;> rfl

theorem check_tasks (s : St K D M R S) : s.check.tasks = s.tasks ∨ s.check.tasks = s.tasks ++ [.scheduled] := by
  unfold St.check; split
  · exact .inr rfl
  · exact .inl rfl

theorem set_ne {α : Type} {l : List α} {t t' : Nat} {x : α} (h : t' ≠ t) : (l.set t x)[t']? = l[t']? := by
  rw [List.getElem?_set_ne (Ne.symm h)]

/-- What a turn of the worker's loop does to log and tasks. -/
theorem loop_same (cfg : Buffered.Cfg K D M R S) (s : St K D M R S) (t : Nat) :
    Adds s.log (s.loop cfg t).log ∧ (∃ x, (s.loop cfg t).tasks = s.tasks.set t x ∧
      ∀ e, x = .inFlight e → .started e ∈ (s.loop cfg t).log) := by
  unfold St.loop
  split
  · split
    · refine ⟨?_, .done, (endTask_same _ _).2, by simp⟩
      rw [(endTask_same _ _).1]; exact Adds.refl _
    · refine ⟨?_, .done, (endTask_same _ _).2, by simp⟩
      rw [(endTask_same _ _).1]; exact Adds.refl _
    · split
      · refine ⟨?_, .done, (endTask_same _ _).2, by simp⟩
        rw [(endTask_same _ _).1]; exact ⟨[_], rfl, rfl, fun _ => rfl⟩
      · refine ⟨⟨[_], rfl, rfl, fun _ => rfl⟩, _, rfl, ?_⟩
        intro e he
        cases he
        exact List.mem_cons_self
  · refine ⟨?_, .done, (endTask_same _ _).2, by simp⟩
    rw [(endTask_same _ _).1]; exact Adds.refl _

theorem start_same {cfg : Buffered.Cfg K D M R S} {s s' : St K D M R S} {t : Nat} (h : s.start cfg t = some s') :
    s.tasks[t]? = some .scheduled ∧ Adds s.log s'.log ∧ (∃ x, s'.tasks = s.tasks.set t x ∧ ∀ e, x = .inFlight e → .started e ∈ s'.log) := by
  unfold St.start at h
  split at h
  · rename_i ht
    simp only [Option.some.injEq] at h
    subst h
    exact ⟨ht, loop_same cfg { s with running := true } t⟩
  · cases h

theorem afterPush_same (cfg : Buffered.Cfg K D M R S) (s : St K D M R S) (t : Nat) (k : K) (p : Except PyErr Unit × Pair K S) :
    Adds s.log (s.afterPush cfg t k p).log ∧ (∃ x, (s.afterPush cfg t k p).tasks = s.tasks.set t x ∧
      ∀ e, x = .inFlight e → .started e ∈ (s.afterPush cfg t k p).log) := by
  unfold St.afterPush
  split
  · refine ⟨?_, .done, (endTask_same _ _).2, by simp⟩
    rw [(endTask_same _ _).1]; exact ⟨[_], rfl, rfl, fun _ => rfl⟩
  · rename_i q
    obtain ⟨h1, h2⟩ := loop_same cfg (St.emit { s with pair := q } (.failed k)) t
    exact ⟨Adds.trans ⟨[_], rfl, rfl, fun _ => rfl⟩ h1, h2⟩

/-- The attempt succeeded. -/
def isOk : Outcome R → Bool
  | .ok => true
  | _ => false

theorem finish_same {cfg : Buffered.Cfg K D M R S} {s s' : St K D M R S} {t : Nat} {o : Outcome R} (h : s.finish cfg t o = some s') :
    ∃ e, s.tasks[t]? = some (.inFlight e) ∧
      (if isOk o then Adds (.succeeded e.key :: s.log) s'.log else Adds s.log s'.log) ∧
      (∃ x, s'.tasks = s.tasks.set t x ∧ ∀ e, x = .inFlight e → .started e ∈ s'.log) := by
  obtain ⟨e, ht⟩ := finish_flight h
  refine ⟨e, ht, ?_⟩
  unfold St.finish at h
  simp only [ht, Option.some.injEq] at h
  subst h
  cases o with
  | ok => exact loop_same cfg (s.emit (.succeeded e.key)) t
  | retry =>
    simp only [isOk, Bool.false_eq_true, if_false]
    split
    · exact afterPush_same ..
    · exact afterPush_same ..
  | fatal r => exact afterPush_same ..
  | raise =>
    simp only [isOk, Bool.false_eq_true, if_false]
    refine ⟨?_, .done, (endTask_same _ _).2, by simp⟩
    rw [(endTask_same _ _).1]; exact ⟨[_], rfl, rfl, fun _ => rfl⟩

/-- Tasks grow at the end or not at all, the log by events of no interest. -/
theorem popError_same (cfg : Buffered.Cfg K D M R S) (s : St K D M R S) (k : K) :
    Adds s.log (s.popError cfg k).log ∧ (s.popError cfg k).tasks = s.tasks := by
  unfold St.popError; split
  · exact ⟨⟨[_], rfl, rfl, fun _ => rfl⟩, rfl⟩
  · exact ⟨Adds.refl _, rfl⟩

theorem reAll_same (cfg : Buffered.Cfg K D M R S) (s : St K D M R S) :
    Adds s.log (s.reprocessAll cfg).log ∧ ((s.reprocessAll cfg).tasks = s.tasks ∨ (s.reprocessAll cfg).tasks = s.tasks ++ [.scheduled]) := by
  unfold St.reprocessAll; split
  · exact ⟨by rw [check_log]; exact ⟨[_], rfl, rfl, fun _ => rfl⟩, check_tasks _⟩
  · exact ⟨Adds.refl _, .inl rfl⟩
  · exact ⟨Adds.refl _, .inl rfl⟩

theorem reOne_same (cfg : Buffered.Cfg K D M R S) (s : St K D M R S) (k : K) :
    Adds s.log (s.reprocessOne cfg k).log ∧ ((s.reprocessOne cfg k).tasks = s.tasks ∨ (s.reprocessOne cfg k).tasks = s.tasks ++ [.scheduled]) := by
  unfold St.reprocessOne; split
  · exact ⟨by rw [check_log]; exact ⟨[_], rfl, rfl, fun _ => rfl⟩, check_tasks _⟩
  · exact ⟨by rw [check_log]; exact Adds.refl _, check_tasks _⟩
  · exact ⟨Adds.refl _, .inl rfl⟩

/-- What an event of the sender other than the end of an attempt does: no success is logged, tasks under way stay, and what
gets under way is logged as started. -/
theorem sender_same {cfg : Buffered.Cfg K D M R S} {s s' : St K D M R S} {l : Sender.Label K D R} (hl : ∀ t o, l ≠ .finish t o)
    (h : Sender.step cfg s l = some s') :
    handled s'.log = handled s.log ∧ (∀ e ∈ s.log, e ∈ s'.log) ∧
    (∀ (t : Nat) e, s.tasks[t]? = some (.inFlight e) → s'.tasks[t]? = some (.inFlight e)) ∧
    (∀ (t : Nat) e, s'.tasks[t]? = some (.inFlight e) → s.tasks[t]? = some (.inFlight e) ∨ .started e ∈ s'.log) := by
  have grow : ∀ {s s' : St K D M R S}, (s'.tasks = s.tasks ∨ s'.tasks = s.tasks ++ [.scheduled]) →
      (∀ (t : Nat) e, s.tasks[t]? = some (.inFlight e) → s'.tasks[t]? = some (.inFlight e)) ∧
      (∀ (t : Nat) e, s'.tasks[t]? = some (.inFlight e) → s.tasks[t]? = some (.inFlight e) ∨ .started e ∈ s'.log) := by
    intro s s' h
    rcases h with h | h <;> rw [h]
    · exact ⟨fun _ _ h => h, fun _ _ h => .inl h⟩
    · constructor
      · intro t e ht
        rw [List.getElem?_append_left (List.getElem?_eq_some_iff.mp ht).1]; exact ht
      · intro t e ht
        left
        rw [List.getElem?_append] at ht
        split at ht
        · exact ht
        · rename_i hlt
          cases ht' : t - s.tasks.length with
          | zero => rw [ht'] at ht; cases ht
          | succ n => rw [ht'] at ht; cases ht
  cases l with
  | enqueue k d =>
    simp only [Sender.step, Option.some.injEq] at h
    subst h
    split
    · exact ⟨rfl, fun _ h => h, grow (.inl rfl)⟩
    · refine ⟨by rw [check_log]; rfl, by rw [check_log]; exact fun e he => List.mem_cons_of_mem _ he, ?_⟩
      exact grow (check_tasks _)
  | start t =>
    obtain ⟨h0, h1, x, h2, h3⟩ := start_same (s' := s') h
    refine ⟨h1.handled, fun e he => h1.mem he, ?_, ?_⟩
    · intro t' e ht
      have : t' ≠ t := by rintro rfl; rw [h0] at ht; cases ht
      rw [h2, set_ne this]; exact ht
    · intro t' e ht
      rw [h2] at ht
      by_cases hn : t' = t
      · subst hn
        rw [List.getElem?_set_self (List.getElem?_eq_some_iff.mp h0).1] at ht
        exact .inr (h3 e (Option.some.inj ht))
      · rw [set_ne hn] at ht; exact .inl ht
  | finish t o => exact absurd rfl (hl t o)
  | pause =>
    simp only [Sender.step, Option.some.injEq] at h
    subst h
    exact ⟨rfl, fun _ h => h, grow (.inl rfl)⟩
  | unpause =>
    simp only [Sender.step, Option.some.injEq] at h
    subst h
    exact ⟨by simp [St.unpause, check_log], by simp [St.unpause, check_log], grow (check_tasks _)⟩
  | clearErrors =>
    simp only [Sender.step, Option.some.injEq] at h
    subst h
    exact ⟨rfl, fun e he => List.mem_cons_of_mem _ he, grow (.inl rfl)⟩
  | popError k =>
    simp only [Sender.step, Option.some.injEq] at h
    subst h
    obtain ⟨h1, h2⟩ := popError_same cfg s k
    exact ⟨h1.handled, fun e he => h1.mem he, grow (.inl h2)⟩
  | reprocessAll =>
    simp only [Sender.step, Option.some.injEq] at h
    subst h
    obtain ⟨h1, h2⟩ := reAll_same cfg s
    exact ⟨h1.handled, fun e he => h1.mem he, grow h2⟩
  | reprocessOne k =>
    simp only [Sender.step, Option.some.injEq] at h
    subst h
    obtain ⟨h1, h2⟩ := reOne_same cfg s k
    exact ⟨h1.handled, fun e he => h1.mem he, grow h2⟩

/-- The end of an attempt. -/
theorem attempt_over {cfg : Buffered.Cfg K D M R S} {s s' : St K D M R S} {t : Nat} {o : Outcome R}
    (h : Sender.step cfg s (.finish t o) = some s') :
    ∃ e, s.tasks[t]? = some (.inFlight e) ∧ handled s'.log = (if isOk o then e.key :: handled s.log else handled s.log) ∧
      (∀ e ∈ s.log, e ∈ s'.log) ∧
      (∀ (t' : Nat) e, s'.tasks[t']? = some (.inFlight e) → s.tasks[t']? = some (.inFlight e) ∨ .started e ∈ s'.log) := by
  obtain ⟨e, ht, hl, x, h2, h3⟩ := finish_same (s' := s') h
  refine ⟨e, ht, ?_, ?_, ?_⟩
  · split at hl
    · rename_i ho; rw [if_pos ho, hl.handled]; rfl
    · rename_i ho; rw [if_neg ho, hl.handled]
  · intro x hx
    split at hl
    · exact hl.mem (List.mem_cons_of_mem _ hx)
    · exact hl.mem hx
  · intro t' e' ht'
    rw [h2] at ht'
    by_cases hn : t' = t
    · subst hn
      rw [List.getElem?_set_self (List.getElem?_eq_some_iff.mp ht).1] at ht'
      exact .inr (h3 e' (Option.some.inj ht'))
    · rw [set_ne hn] at ht'; exact .inl ht'

/-- A request arrives at the endpoint. -/
theorem handler_arrive {cfg : Buffered.Cfg K D M R S} {s s' : Handler.HSt K D M R S} {k : K} {d : D}
    (h : Handler.step cfg s (.arrive k d) = some s') :
    Adds s.core.log s'.core.log ∧
    (s'.collecting = s.collecting ∨ ∃ d', cfg.build d = some d' ∧ s'.collecting = s.collecting ++ [(k, d')]) := by
  simp only [Handler.step, Option.some.injEq] at h
  subst h
  split
  · exact ⟨⟨[_], rfl, rfl, fun _ => rfl⟩, .inl rfl⟩
  · rename_i d' hd
    split
    · exact ⟨⟨[_], rfl, rfl, fun _ => rfl⟩, .inl rfl⟩
    · exact ⟨Adds.refl _, .inr ⟨d', hd, rfl⟩⟩

theorem handler_accept {cfg : Buffered.Cfg K D M R S} {s s' : Handler.HSt K D M R S} {i : Nat} {m : M}
    (h : Handler.step cfg s (.accept i m) = some s') :
    ∃ k d, s.collecting[i]? = some (k, d) ∧ s'.collecting = s.collecting.eraseIdx i ∧ s'.core.log = .acked k d m :: s.core.log := by
  simp only [Handler.step] at h
  split at h
  · cases h
  · rename_i k d hc
    simp only [Option.some.injEq] at h
    subst h
    exact ⟨k, d, hc, rfl, check_log _⟩

theorem handler_refuse {cfg : Buffered.Cfg K D M R S} {s s' : Handler.HSt K D M R S} {i : Nat}
    (h : Handler.step cfg s (.refuse i) = some s') :
    (∃ x, s.collecting[i]? = some x) ∧ s'.collecting = s.collecting.eraseIdx i ∧ Adds s.core.log s'.core.log := by
  simp only [Handler.step] at h
  split at h
  · cases h
  · rename_i k d hc
    simp only [Option.some.injEq] at h
    subst h
    exact ⟨⟨_, hc⟩, rfl, ⟨[_], rfl, rfl, fun _ => rfl⟩⟩

/-- The log only grows, and acceptances are recorded only by accepting. -/
def Keeps (l l' : List (Ev K D M R)) : Prop := (∀ e ∈ l, e ∈ l') ∧ ∀ k, copies k l' = copies k l

theorem Adds.keeps {l l' : List (Ev K D M R)} (h : Adds l l') : Keeps l l' := ⟨fun _ he => h.mem he, h.copies⟩

theorem handler_other {cfg : Buffered.Cfg K D M R S} {s s' : Handler.HSt K D M R S} {l : Handler.Label K D M R}
    (h1 : ∀ k d, l ≠ .arrive k d) (h2 : ∀ i m, l ≠ .accept i m) (h3 : ∀ i, l ≠ .refuse i) (h : Handler.step cfg s l = some s') :
    s'.collecting = s.collecting ∧ Keeps s.core.log s'.core.log := by
  have core : ∀ {c : Option (St K D M R S)}, c.map (fun c => { s with core := c }) = some s' → ∃ c', c = some c' ∧ s' = { s with core := c' } := by
    intro c hc
    cases c with
    | none => cases hc
    | some c' => exact ⟨c', rfl, (Option.some.inj hc).symm⟩
  cases l with
  | arrive k d => exact absurd rfl (h1 k d)
  | accept i m => exact absurd rfl (h2 i m)
  | refuse i => exact absurd rfl (h3 i)
  | push i =>
    simp only [Handler.step] at h
    split at h
    · cases h
    · simp only [Option.some.injEq] at h
      subst h
      exact ⟨rfl, (Adds.refl _).keeps⟩
  | start t =>
    obtain ⟨c', hc, rfl⟩ := core h
    exact ⟨rfl, (start_same hc).2.1.keeps⟩
  | finish t o =>
    simp only [Handler.step] at h
    split at h
    · cases h
    · obtain ⟨c', hc, rfl⟩ := core h
      obtain ⟨e, _, hl, _⟩ := finish_same hc
      refine ⟨rfl, ?_⟩
      split at hl
      · refine ⟨fun x hx => hl.mem (List.mem_cons_of_mem _ hx), fun k => ?_⟩
        rw [hl.copies]; rfl
      · exact hl.keeps
  | pauseReceiving =>
    simp only [Handler.step, Option.some.injEq] at h; subst h; exact ⟨rfl, (Adds.refl _).keeps⟩
  | unpauseReceiving =>
    simp only [Handler.step, Option.some.injEq] at h; subst h
    exact ⟨rfl, by simp only [check_log]; exact (Adds.refl _).keeps⟩
  | pauseProcessing =>
    simp only [Handler.step, Option.some.injEq] at h; subst h; exact ⟨rfl, (Adds.refl _).keeps⟩
  | unpauseProcessing =>
    simp only [Handler.step, Option.some.injEq] at h; subst h
    exact ⟨rfl, by simp only [St.unpause, check_log]; exact (Adds.refl _).keeps⟩
  | clearErrors =>
    simp only [Handler.step, Option.some.injEq] at h; subst h
    exact ⟨rfl, Adds.keeps ⟨[_], rfl, rfl, fun _ => rfl⟩⟩
  | popError k =>
    simp only [Handler.step, Option.some.injEq] at h; subst h
    exact ⟨rfl, (popError_same cfg s.core k).1.keeps⟩
  | reprocessAll =>
    simp only [Handler.step, Option.some.injEq] at h; subst h
    exact ⟨rfl, (reAll_same cfg s.core).1.keeps⟩
  | reprocessOne k =>
    simp only [Handler.step, Option.some.injEq] at h; subst h
    exact ⟨rfl, (reOne_same cfg s.core k).1.keeps⟩

end logs

end Verif.Delivery
