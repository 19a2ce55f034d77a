import Verif.Buffered.Invariants

/-!
# What single transitions do, in terms of queue contents
-/

set_option linter.unusedSectionVars false

namespace Verif.Buffered

open Verif.Py Verif.Queue Verif.Queue.Spec Verif.Pending

variable {K D M R S : Type} [DecidableEq K]

theorem hrun_reach {cfg : Cfg K D M R S} {s s'} (h : HReach cfg Any s) {ls} (hs : hrun cfg s ls = some s') : HReach cfg Any s' := by
  induction ls generalizing s with
  | nil => rw [← Option.some.inj hs]; exact h
  | cons l ls ih =>
    simp only [hrun] at hs
    cases hl : Handler.step cfg s l with
    | none => rw [hl] at hs; cases hs
    | some s1 => rw [hl] at hs; exact ih (.step h trivial hl) hs

theorem srun_reach {cfg : Cfg K D M R S} {s s'} (h : SReach cfg Any s) {ls} (hs : srun cfg s ls = some s') : SReach cfg Any s' := by
  induction ls generalizing s with
  | nil => rw [← Option.some.inj hs]; exact h
  | cons l ls ih =>
    simp only [srun] at hs
    cases hl : Sender.step cfg s l with
    | none => rw [hl] at hs; cases hs
    | some s1 => rw [hl] at hs; exact ih (.step h trivial hl) hs

theorem starts_append (l1 l2 : List (Ev K D M R)) : starts (l1 ++ l2) = starts l1 ++ starts l2 := by
  induction l1 with
  | nil => rfl
  | cons e l ih => cases e <;> simp [starts, ih]

theorem lostKeys_append (l1 l2 : List (Ev K D M R)) : lostKeys (l1 ++ l2) = lostKeys l1 ++ lostKeys l2 := by
  induction l1 with
  | nil => rfl
  | cons e l ih => cases e <;> simp [lostKeys, ih]

theorem lost_mem {k : K} {log : List (Ev K D M R)} : k ∈ lostKeys log ↔ .lost k ∈ log := by
  induction log with
  | nil => simp [lostKeys]
  | cons e l ih => cases e <;> simp [lostKeys, ih]

/-- Any restriction on events allows less. -/
theorem HReach.any {cfg : Cfg K D M R S} {P s} (h : HReach cfg P s) : HReach cfg Any s := by
  induction h with
  | setup h => exact .setup h
  | step _ _ hs ih => exact .step ih trivial hs

theorem SReach.any {cfg : Cfg K D M R S} {P s} (h : SReach cfg P s) : SReach cfg Any s := by
  induction h with
  | setup h => exact .setup h
  | step _ _ hs ih => exact .step ih trivial hs

/-- The common part of a reachable state. -/
theorem HReach.core {cfg : Cfg K D M R S} (hc : cfg.codecs.Lawful) {P s} (h : HReach cfg P s) :
    Tasks s.core ∧ ∃ lp le, Pending.Inv cfg.codecs s.core.pair lp le := by
  obtain ⟨_, _, a, _, _, _, _, _, h⟩ := hreach_amounts ⟨true, true, true⟩ hc (by simp) h
  exact ⟨h.core.tasks, _, _, h.core.inv⟩

theorem SReach.core {cfg : Cfg K D M R S} (hc : cfg.codecs.Lawful) {P s} (h : SReach cfg P s) :
    Tasks s ∧ ∃ lp le, Pending.Inv cfg.codecs s.pair lp le := by
  obtain ⟨_, _, a, _, _, _, _, _, h, _⟩ := sreach_amounts ⟨true, true, true⟩ hc (by simp) h
  exact ⟨h.tasks, _, _, h.inv⟩

theorem inv_of {c : Codecs K D M R S} {q : Pair K S} {lp le lp' le'} (h : Pending.Inv c q lp le) (h' : PairHolds c q lp' le') :
    Pending.Inv c q lp' le' := by
  rw [holds_unique h'.p h.holds.p, holds_unique h'.e h.holds.e]
  exact h

/-! ### the worker -/

theorem noWorker_alive {s : St K D M R S} {t : Nat} {x} (hcur : s.current = some t) (hx : s.tasks[t]? = some x) (hd : x ≠ .done) :
    s.noWorker = false := by
  unfold St.noWorker
  rw [hcur]
  simp only [hx]
  cases x <;> simp_all

theorem noWorker_check (s : St K D M R S) : s.check.noWorker = false := by
  unfold St.check
  split
  · exact noWorker_alive (t := s.tasks.length) (x := .scheduled) rfl (by simp) (by simp)
  · rename_i h; simpa using h

/-- The result of `loop`. -/
theorem loop_turn {cfg : Cfg K D M R S} (hc : cfg.codecs.Lawful) {s : St K D M R S} {t : Nat} (h : Mid s t) {lp le}
    (hi : Pending.Inv cfg.codecs s.pair lp le) :
    Pending.Inv cfg.codecs (s.loop cfg t).pair (turn (R := R) cfg.build s.paused lp).1 le ∧
    (s.loop cfg t).log = (turn cfg.build s.paused lp).2 ++ s.log ∧ (s.loop cfg t).paused = s.paused ∧
    ((s.loop cfg t).noWorker = true → s.paused = true ∨ lp = [] ∨ ∃ k, Ev.lost k ∈ (turn (R := R) cfg.build s.paused lp).2) ∧
    (∀ e, Ev.started e ∈ (turn (R := R) cfg.build s.paused lp).2 → (s.loop cfg t).tasks[t]? = some (.inFlight e)) := by
  unfold St.loop
  by_cases hcond : (!s.paused && s.pair.hasPending) = true
  · rw [if_pos hcond]
    simp only [Bool.and_eq_true, Bool.not_eq_true'] at hcond
    have hp : lp ≠ [] := (hasPending_iff hc hi).mp hcond.2
    obtain ⟨⟨k, e⟩, rest, rfl⟩ : ∃ x rest, lp = x :: rest := by
      cases lp with
      | nil => exact absurd rfl hp
      | cons x r => exact ⟨x, r, rfl⟩
    obtain ⟨h1, h2⟩ := inv_pop hi
    have hk : e.key = k := hi.holds.pKeys (k, e) (by simp)
    have e1 : s.pair.pop cfg.codecs = (.ok (some e), (s.pair.pop cfg.codecs).2) := by
      rw [← show (s.pair.pop cfg.codecs).1 = .ok (some e) from h1]
    rw [e1]
    simp only [List.tail_cons] at h2
    cases hb : cfg.build e.data with
    | none =>
      have htu : turn (R := R) cfg.build s.paused ((k, e) :: rest) = (rest, [.lost k]) := by
        rw [hcond.1]; simp only [turn, hb]
      rw [htu]
      simp only [hb]
      have hm : Mid ({ s with pair := (s.pair.pop cfg.codecs).2 }.emit (Ev.lost e.key)) t := (h.withPair _).emit _
      obtain ⟨g1, g2, g3, g4, g5, _⟩ := hm.endTasks
      refine ⟨?_, ?_, ?_, ?_, by simp⟩
      · rw [g3]; exact h2
      · rw [g4]; simp [St.emit, hk]
      · rw [g5]; rfl
      · intro _; right; right; exact ⟨k, by simp⟩
    | some d =>
      have htu : turn (R := R) cfg.build s.paused ((k, e) :: rest) = (rest, [.started { e with data := d }]) := by
        rw [hcond.1]; simp only [turn, hb]
      rw [htu]
      simp only [hb]
      refine ⟨h2, rfl, rfl, ?_, ?_⟩
      · intro hn
        have := noWorker_alive (s := ({ s with pair := (s.pair.pop cfg.codecs).2, tasks := s.tasks.set t (.inFlight { e with data := d }) }).emit
          (.started { e with data := d })) (t := t) h.cur (x := .inFlight { e with data := d }) (by
            simp only [St.emit, List.getElem?_set_self h.lt]) (by simp)
        rw [this] at hn; cases hn
      · intro e' he'
        simp only [List.mem_singleton, Ev.started.injEq] at he'
        subst he'
        simp only [St.emit, List.getElem?_set_self h.lt]
  · rw [if_neg hcond]
    obtain ⟨g1, g2, g3, g4, g5, _⟩ := h.endTasks
    simp only [Bool.and_eq_true, Bool.not_eq_true', not_and, Bool.not_eq_true] at hcond
    cases hpa : s.paused with
    | true =>
      refine ⟨by rw [g3]; simpa [turn] using hi, by rw [g4]; simp [turn], by rw [g5, hpa], fun _ => .inl rfl, by simp [turn]⟩
    | false =>
      have hl : lp = [] := by
        by_contra hne
        have := (hasPending_iff hc hi).mpr hne
        rw [hcond hpa] at this; cases this
      subst hl
      refine ⟨by rw [g3]; simpa [turn] using hi, by rw [g4]; simp [turn], by rw [g5, hpa], fun _ => .inr (.inl rfl), by simp [turn]⟩

theorem start_mid {s : St K D M R S} (h : Tasks s) {t : Nat} (ht : s.tasks[t]? = some .scheduled) : Mid { s with running := true } t :=
  ⟨h.onlyTask ht (by simp), (List.getElem?_eq_some_iff.mp ht).1, h.single t _ ht (by simp), h.shutdown, rfl⟩

theorem flight_mid {s : St K D M R S} (h : Tasks s) {t : Nat} {e} (ht : s.tasks[t]? = some (.inFlight e)) : Mid s t := by
  have ho := h.onlyTask ht (by simp)
  exact ⟨ho, (List.getElem?_eq_some_iff.mp ht).1, h.single t _ ht (by simp), h.shutdown,
    h.running.mpr (by rw [inFlight_get ho ht]; simp)⟩

/-- What is queued once an attempt on `e` has ended with `o`. -/
def settle (cfg : Cfg K D M R S) (e : PEntry K D M) (o : Outcome R) (lp : List (K × PEntry K D M)) (le : List (K × EEntry K D M R)) :
    List (K × PEntry K D M) × List (K × EEntry K D M R) :=
  match o with
  | .ok => (lp, le)
  | .retry => if ((e.retries + 1 : Nat) : Int) ≥ cfg.maxRetries then
      (lp, Spec.push le ⟨e.key, e.data, cfg.reason, cfg.keep e.md⟩ e.key)
    else (Spec.push lp ⟨e.key, e.retries + 1, e.data, cfg.keep e.md⟩ e.key, le)
  | .fatal r => (lp, Spec.push le ⟨e.key, e.data, r, cfg.keep e.md⟩ e.key)
  | .raise => (lp, le)

/-- What can be seen of the end of an attempt. -/
def endEvent (k : K) : Outcome R → Ev K D M R
  | .ok => .succeeded k
  | .raise => .lost k
  | _ => .failed k

theorem start_turn {cfg : Cfg K D M R S} (hc : cfg.codecs.Lawful) {s s' : St K D M R S} {t : Nat} {lp le}
    (hT : Tasks s) (hi : Pending.Inv cfg.codecs s.pair lp le) (hs : s.start cfg t = some s') :
    Pending.Inv cfg.codecs s'.pair (turn (R := R) cfg.build s.paused lp).1 le ∧
    s'.log = (turn cfg.build s.paused lp).2 ++ s.log ∧ s'.paused = s.paused ∧
    (s'.noWorker = true → s.paused = true ∨ lp = [] ∨ ∃ k, Ev.lost k ∈ (turn (R := R) cfg.build s.paused lp).2) ∧
    (∀ e, Ev.started e ∈ (turn (R := R) cfg.build s.paused lp).2 → s'.tasks[t]? = some (.inFlight e)) := by
  unfold St.start at hs
  split at hs
  · rename_i ht
    rw [← Option.some.inj hs]
    exact loop_turn hc (start_mid hT ht) (lp := lp) (le := le) hi
  · cases hs

theorem finish_turn {cfg : Cfg K D M R S} (hc : cfg.codecs.Lawful) {s s' : St K D M R S} {t : Nat} {e : PEntry K D M} {o : Outcome R} {lp le}
    (hT : Tasks s) (hi : Pending.Inv cfg.codecs s.pair lp le) (ht : s.tasks[t]? = some (.inFlight e)) (ho : o ≠ .raise)
    (hs : s.finish cfg t o = some s') :
    Pending.Inv cfg.codecs s'.pair (turn (R := R) cfg.build s.paused (settle cfg e o lp le).1).1 (settle cfg e o lp le).2 ∧
    s'.log = (turn cfg.build s.paused (settle cfg e o lp le).1).2 ++ endEvent e.key o :: s.log ∧ s'.paused = s.paused ∧
    (s'.noWorker = true → s.paused = true ∨ (settle cfg e o lp le).1 = [] ∨
      ∃ k, Ev.lost k ∈ (turn (R := R) cfg.build s.paused (settle cfg e o lp le).1).2) ∧
    (∀ e', Ev.started e' ∈ (turn (R := R) cfg.build s.paused (settle cfg e o lp le).1).2 → s'.tasks[t]? = some (.inFlight e')) := by
  have hm := flight_mid hT ht
  unfold St.finish at hs
  rw [ht] at hs
  simp only [Option.some.injEq] at hs
  subst hs
  have push : ∀ (p : Except PyErr Unit × Pair K S) {lp1 le1}, p.1 = .ok () → Pending.Inv cfg.codecs p.2 lp1 le1 →
      Pending.Inv cfg.codecs (s.afterPush cfg t e.key p).pair (turn (R := R) cfg.build s.paused lp1).1 le1 ∧
      (s.afterPush cfg t e.key p).log = (turn cfg.build s.paused lp1).2 ++ .failed e.key :: s.log ∧
      (s.afterPush cfg t e.key p).paused = s.paused ∧
      ((s.afterPush cfg t e.key p).noWorker = true → s.paused = true ∨ lp1 = [] ∨
        ∃ k, Ev.lost k ∈ (turn (R := R) cfg.build s.paused lp1).2) ∧
      (∀ e', Ev.started e' ∈ (turn (R := R) cfg.build s.paused lp1).2 → (s.afterPush cfg t e.key p).tasks[t]? = some (.inFlight e')) := by
    rintro ⟨p1, p2⟩ lp1 le1 hp hi1
    simp only at hp hi1
    subst hp
    exact loop_turn hc (s := { s with pair := p2 }.emit (.failed e.key)) ((hm.withPair _).emit _) (lp := lp1) (le := le1) hi1
  cases o with
  | ok => exact loop_turn hc (hm.emit (.succeeded e.key)) (lp := lp) (le := le) hi
  | retry =>
    simp only [settle]
    by_cases hge : ((e.retries + 1 : Nat) : Int) ≥ cfg.maxRetries
    · simp only [if_pos hge]
      obtain ⟨g1, g2⟩ := inv_pushError hc hi e.key e.data cfg.reason (cfg.keep e.md)
      exact push _ g1 g2
    · simp only [if_neg hge]
      obtain ⟨g1, g2⟩ := inv_pushPending hc hi e.key e.data (e.retries + 1) (cfg.keep e.md)
      exact push _ g1 g2
  | fatal r =>
    obtain ⟨g1, g2⟩ := inv_pushError hc hi e.key e.data r (cfg.keep e.md)
    exact push _ g1 g2
  | raise => exact absurd rfl ho

theorem raise_result {cfg : Cfg K D M R S} {s s' : St K D M R S} {t : Nat} {e : PEntry K D M}
    (hT : Tasks s) (ht : s.tasks[t]? = some (.inFlight e)) (hs : s.finish cfg t .raise = some s') :
    s'.pair = s.pair ∧ s'.log = .lost e.key :: s.log ∧ s'.paused = s.paused ∧ s'.noWorker = true := by
  have hm := (flight_mid hT ht).emit (Ev.lost e.key)
  unfold St.finish at hs
  rw [ht] at hs
  simp only [Option.some.injEq] at hs
  subst hs
  obtain ⟨g1, g2, g3, g4, g5, g6⟩ := hm.endTasks
  exact ⟨g3, g4, g5, g6⟩

theorem finish_flight {cfg : Cfg K D M R S} {s s' : St K D M R S} {t : Nat} {o} (hs : s.finish cfg t o = some s') :
    ∃ e, s.tasks[t]? = some (.inFlight e) := by
  unfold St.finish at hs
  split at hs
  · rename_i e ht; exact ⟨e, ht⟩
  · cases hs

/-! ### terminating -/

theorem tasks_cancel {s : St K D M R S} (h : Tasks s) (t : Nat) :
    Tasks (s.cancel t) ∧ (s.cancel t).pair = s.pair ∧ (s.cancel t).tasks.length = s.tasks.length ∧
    (∀ x : Task K D M, (s.cancel t).tasks[t]? = some x → x = .done) ∧
    (∀ t' : Nat, s.tasks[t']? = some .done → (s.cancel t).tasks[t']? = some .done) ∧
    (∃ ks, (s.cancel t).log = ks.map Ev.lost ++ s.log ∧ ks ++ (inFlight (s.cancel t).tasks).map PEntry.key = (inFlight s.tasks).map PEntry.key) := by
  unfold St.cancel
  split
  · rename_i e ht
    have hm := flight_mid h ht
    have hf := inFlight_get hm.only ht
    obtain ⟨g1, g2, g3, g4, g5, g6⟩ := (hm.emit (Ev.lost e.key)).endTasks
    have et : ((s.emit (.lost e.key)).endTask t).tasks = s.tasks.set t .done := by
      unfold St.endTask St.shutDownCheck
      simp [St.emit, h.shutdown]
    refine ⟨g1, g3, by rw [et]; simp, ?_, ?_, [e.key], ?_, ?_⟩
    · intro x hx; rw [et, List.getElem?_set_self hm.lt] at hx; exact (Option.some.inj hx).symm
    · intro t' ht'
      rw [et, List.getElem?_set]
      split
      · rename_i e'; subst e'; rw [ht] at ht'; cases ht'
      · exact ht'
    · rw [g4]; rfl
    · rw [g2, hf]; rfl
  · rename_i ht
    have ho := h.onlyTask ht (by simp)
    have hlt : t < s.tasks.length := (List.getElem?_eq_some_iff.mp ht).1
    have hf : inFlight s.tasks = [] := by
      have := inFlight_set ho hlt .scheduled
      rw [set_same ht] at this
      exact this
    have hf' : inFlight (s.tasks.set t .done) = [] := inFlight_set ho hlt .done
    refine ⟨⟨?_, ?_, ?_, h.shutdown⟩, rfl, by simp, ?_, ?_, [], rfl, by simp [hf, hf']⟩
    · intro t' x hx hne
      simp only at hx
      rw [List.getElem?_set] at hx
      split at hx
      · exact absurd (Option.some.inj (by simpa [hlt] using hx)).symm hne
      · exact h.single t' x hx hne
    · intro t' ht'; simp only [List.length_set]; exact h.cur t' ht'
    · simp only [hf']; rw [h.running, hf]
    · intro x hx; simp only at hx; rw [List.getElem?_set_self hlt] at hx; exact (Option.some.inj hx).symm
    · intro t' ht'
      simp only
      rw [List.getElem?_set]
      split
      · rename_i e'; subst e'; rw [ht] at ht'
      · exact ht'
  · rename_i h1 h2
    refine ⟨h, rfl, rfl, ?_, fun _ h => h, [], rfl, rfl⟩
    intro x hx
    cases x with
    | scheduled => exact absurd hx h2
    | inFlight e => exact absurd hx (h1 e)
    | done => rfl

theorem cancel_range {s : St K D M R S} (h : Tasks s) (n : Nat) :
    Tasks ((List.range n).foldl St.cancel s) ∧ ((List.range n).foldl St.cancel s).pair = s.pair ∧
    ((List.range n).foldl St.cancel s).tasks.length = s.tasks.length ∧
    (∀ (t : Nat) (x : Task K D M), t < n → ((List.range n).foldl St.cancel s).tasks[t]? = some x → x = .done) ∧
    (∃ ks, ((List.range n).foldl St.cancel s).log = ks.map Ev.lost ++ s.log ∧
      ks ++ (inFlight ((List.range n).foldl St.cancel s).tasks).map PEntry.key = (inFlight s.tasks).map PEntry.key) := by
  induction n with
  | zero => exact ⟨h, rfl, rfl, by simp, [], rfl, rfl⟩
  | succ n ih =>
    rw [List.range_succ, List.foldl_append]
    obtain ⟨g1, g2, g3, g4, ks, g5, g6⟩ := ih
    obtain ⟨f1, f2, f3, f4, f5, ks', f6, f7⟩ := tasks_cancel g1 n
    simp only [List.foldl_cons, List.foldl_nil]
    refine ⟨f1, f2.trans g2, f3.trans g3, ?_, ks ++ ks', ?_, ?_⟩
    · intro t x htn hx
      by_cases e : t = n
      · subst e; exact f4 x hx
      · have hlt : t < ((List.range n).foldl St.cancel s).tasks.length := by
          rw [← f3]; exact (List.getElem?_eq_some_iff.mp hx).1
        have := g4 t _ (by omega) (List.getElem?_eq_getElem hlt)
        have := f5 t (by rw [List.getElem?_eq_getElem hlt, this])
        rw [this] at hx; exact (Option.some.inj hx).symm
    · rw [f6, g5]
      have hl : ks' = [] ∨ ks = [] := by
        rcases ks with _ | ⟨a, ks⟩
        · exact .inr rfl
        · left
          have h1 : (inFlight ((List.range n).foldl St.cancel s).tasks).length + (ks.length + 1) = (inFlight s.tasks).length := by
            have := congrArg List.length g6; simp at this; omega
          have h2 : (inFlight s.tasks).length ≤ 1 := by
            by_cases ha : ∃ (t : Nat) (e : PEntry K D M), s.tasks[t]? = some (.inFlight e)
            · obtain ⟨t, e, hte⟩ := ha
              rw [inFlight_get (h.onlyTask hte (by simp)) hte]; simp
            · have : inFlight s.tasks = [] := by
                clear * - ha
                generalize s.tasks = l at *
                induction l with
                | nil => rfl
                | cons y l ih =>
                  cases y with
                  | inFlight e => exact absurd ⟨0, e, rfl⟩ ha
                  | scheduled => exact ih fun ⟨t, e, h⟩ => ha ⟨t + 1, e, by simpa using h⟩
                  | done => exact ih fun ⟨t, e, h⟩ => ha ⟨t + 1, e, by simpa using h⟩
              rw [this]; simp
          have h3 : ks'.length ≤ (inFlight ((List.range n).foldl St.cancel s).tasks).length := by
            have := congrArg List.length f7; simp at this; omega
          exact List.length_eq_zero_iff.mp (by omega)
      rcases hl with rfl | rfl <;> simp
    · rw [List.append_assoc, f7, g6]

theorem terminate_core {s : St K D M R S} (h : Tasks s) :
    s.cancelAll.shutDown.pair = s.pair.shutDown.2 ∧
    s.cancelAll.shutDown.log = ((inFlight s.tasks).map fun e => Ev.lost e.key) ++ s.log := by
  obtain ⟨g1, g2, g3, g4, ks, g5, g6⟩ := cancel_range h s.tasks.length
  have hf : inFlight ((List.range s.tasks.length).foldl St.cancel s).tasks = [] :=
    inFlight_nil fun t x hx => g4 t x (by rw [← g3]; exact (List.getElem?_eq_some_iff.mp hx).1) hx
  have hr : ((List.range s.tasks.length).foldl St.cancel s).running = false := by
    cases hr : ((List.range s.tasks.length).foldl St.cancel s).running with
    | false => rfl
    | true => exact absurd hf (g1.running.mp hr)
  rw [hf] at g6
  simp only [List.map_nil, List.append_nil] at g6
  unfold St.shutDown St.shutDownCheck St.cancelAll
  simp only [hr, Bool.not_false, Bool.true_and, if_true]
  refine ⟨by rw [g2], ?_⟩
  rw [g5, g6, List.map_map]; rfl

end Verif.Buffered
