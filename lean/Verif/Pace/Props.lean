import Verif.Pace.Lemmas
import Verif.Buffered.Props
import Verif.Client.Lemmas
import Mathlib.Tactic.NormNum

/-!
# Property C95, and C20 for senders that wait
-/

set_option linter.unusedSectionVars false

namespace Verif.Pace

open Verif.Py Verif.Pending Verif.Buffered Verif.Client Verif.Client.Spec

variable {K D M R S : Type} [DecidableEq K]

/-! ### examples -/

theorem trun_reach {cfg : Cfg K D M R S} {wait : ℚ} {s s' : Timed K D M R S} {ls} (h : TReach cfg wait s) (hs : trun cfg wait s ls = some s') :
    TReach cfg wait s' := by
  induction ls generalizing s with
  | nil => rw [← Option.some.inj hs]; exact h
  | cons l ls ih =>
    simp only [trun] at hs
    cases hl : tstep cfg wait s l with
    | none => rw [hl] at hs; cases hs
    | some s1 => rw [hl] at hs; exact ih (.step h hl) hs

/-- A sender with empty queues, at time 100. -/
def exT : Timed Nat (List Nat) Nat Nat (PEntry Nat (List Nat) Nat ⊕ EEntry Nat (List Nat) Nat Nat) := setup exCfg (Pair.open 2 [] []) 100

theorem exT_reach (wait : ℚ) : TReach exCfg wait exT := .setup (.new (by decide))

/-- Two messages are queued and sent with a wait period of 10; the first takes 3 to send, and the second sleep ends late. -/
def exEvents : List (TLabel Nat (List Nat) Nat) :=
  [.event (.enqueue 8 [18]), .event (.enqueue 9 [19]), .event (.start 0), .tick 10, .wake 0, .tick 3, .event (.finish 0 .ok), .tick 11, .wake 0]

/-! ### C95 -/

/-- **C95.** Whatever happens, a message is handed to the client at least the wait period after the previous one was, and after the call for that one had
ended. -/
theorem C95_paced {cfg : Cfg K D M R S} (hc : cfg.codecs.Lawful) {wait : ℚ} {s} (h : TReach cfg wait s) : Paced wait s.trace := (treach_inv hc h).paced

example : ∃ s, TReach exCfg 10 s ∧ s.trace = [(124, .sent 9), (113, .over 8), (110, .sent 8)] :=
  ⟨(trun exCfg 10 exT exEvents).get (by decide +kernel), trun_reach (exT_reach 10) (Option.some_get _).symm, by decide +kernel⟩

/-- **C95**, calls do not overlap, and it is the call for the message handed over that ends. -/
theorem C95_in_turn {cfg : Cfg K D M R S} (hc : cfg.codecs.Lawful) {wait : ℚ} {s} (h : TReach cfg wait s) : InTurn s.trace := (treach_inv hc h).turn

/-- **C95**, the rate: if `n` messages are handed over between two moments (both included), these are at least `n - 1` wait periods apart. -/
theorem C95_rate {cfg : Cfg K D M R S} (hc : cfg.codecs.Lawful) {wait : ℚ} (hw : 0 ≤ wait) {s} (h : TReach cfg wait s) (a b : ℚ)
    (hn : (handed s.trace).filter (fun u => a ≤ u ∧ u ≤ b) ≠ []) :
    ((((handed s.trace).filter (fun u => a ≤ u ∧ u ≤ b)).length : ℚ) - 1) * wait ≤ b - a := by
  refine count_window hw a b ((paced_handed (C95_paced hc h)).filter _) (fun x hx => ?_) hn
  have := List.of_mem_filter hx
  simpa using this

example : ∃ s, TReach exCfg 10 s ∧ (handed s.trace).filter (fun u => (110 : ℚ) ≤ u ∧ u ≤ 124) = [124, 110] :=
  ⟨(trun exCfg 10 exT exEvents).get (by decide +kernel), trun_reach (exT_reach 10) (Option.some_get _).symm, by decide +kernel⟩

/-- **C95**, without a wait period a message is handed over as soon as it is taken from the queue: there is no state in which it is in the hands of a
worker but has not been handed over. -/
theorem C95_at_once {cfg : Cfg K D M R S} (hc : cfg.codecs.Lawful) {wait : ℚ} (hw : wait ≤ 0) {s} (h : TReach cfg wait s) {t : Nat} {e}
    (he : s.core.tasks[t]? = some (.inFlight e)) : ∃ u rest, s.trace = (u, .sent e.key) :: rest := by
  have hi := treach_inv hc h
  refine hi.busy t e he ?_
  cases hu : s.sleeping t with
  | none => rfl
  | some u => exact absurd (hi.sleep t u hu).1 (not_lt.mpr hw)

example : ∃ s, TReach exCfg 0 s ∧ s.core.tasks[0]? = some (.inFlight ⟨8, 0, [18], 0⟩) :=
  ⟨(trun exCfg 0 exT [.event (.enqueue 8 [18]), .event (.start 0)]).get (by decide +kernel), trun_reach (exT_reach 0) (Option.some_get _).symm,
    by decide +kernel⟩

/-- **C95**, nobody waits longer than asked for: a message taken from the queue has been handed over, or can be once the wait period has passed. -/
theorem C95_not_longer {cfg : Cfg K D M R S} (hc : cfg.codecs.Lawful) {wait : ℚ} {s} (h : TReach cfg wait s) {t : Nat} {e}
    (he : s.core.tasks[t]? = some (.inFlight e)) :
    (∃ u rest, s.trace = (u, .sent e.key) :: rest) ∨
    (0 < wait ∧ ∃ s', trun cfg wait s [.tick wait, .wake t] = some s' ∧ s'.trace = (s.now + wait, .sent e.key) :: s.trace) := by
  have hi := treach_inv hc h
  cases hu : s.sleeping t with
  | none => exact .inl (hi.busy t e he hu)
  | some u =>
    obtain ⟨hw, _, _, hle⟩ := hi.sleep t u hu
    refine .inr ⟨hw, ?_⟩
    simp only [trun, tstep, le_of_lt hw, if_true, hu, he, hle]
    exact ⟨_, rfl, rfl⟩

example : ∃ s, TReach exCfg 10 s ∧ s.core.tasks[0]? = some (.inFlight ⟨8, 0, [18], 0⟩) ∧ s.trace = [] :=
  ⟨(trun exCfg 10 exT [.event (.enqueue 8 [18]), .event (.start 0)]).get (by decide +kernel), trun_reach (exT_reach 10) (Option.some_get _).symm,
    by decide +kernel, by decide +kernel⟩

/-- **C95**, waiting changes nothing else: without the times it is a run of the sender that the other properties are about. -/
theorem C95_same_sender {cfg : Cfg K D M R S} (hc : cfg.codecs.Lawful) {wait : ℚ} {s} (h : TReach cfg wait s) : SReach cfg Any s.core :=
  (treach_inv hc h).reach

/-! ### the attempts of the client -/

theorem after_check (kind : Kind) (max rc : Int) (a : Attempt) :
    (after kind max rc a).1 = if rc + 1 ≥ max then (if retryable kind a then .over (.raised .maxRetries) else .over (final kind a))
      else if retryable kind a then .check (rc + 1) else .over (final kind a) := by
  cases kind <;> cases a <;> (try rename_i re; cases re) <;> by_cases h : rc + 1 ≥ max <;> simp [after, retryable, final, h]

theorem attempts_from (kind : Kind) (max : Int) (delay : ℚ) (as : List (Bool × Attempt × ℚ)) (ht : ∀ a ∈ as, 0 ≤ a.2.2) : ∀ (rc : Int) (now : ℚ),
    (attemptsAt kind max delay rc now as).length = (loopFrom kind max rc (as.map fun a => (a.1, a.2.1))).2 ∧
    (∀ u rest, attemptsAt kind max delay rc now as = u :: rest → u = now) ∧ Apart delay (attemptsAt kind max delay rc now as) := by
  induction as with
  | nil => intro rc now; rw [List.map_nil, loopFrom_nil]; exact ⟨rfl, fun _ _ h => (by cases h), trivial⟩
  | cons a as ih =>
    intro rc now
    obtain ⟨f, a, took⟩ := a
    have ih := ih (fun a ha => ht a (by simp [ha]))
    have h0 : 0 ≤ took := ht (f, a, took) (by simp)
    rw [List.map_cons, loopFrom_cons]
    simp only [attemptsAt]
    by_cases hc : rc < max ∧ (kind = .datagram ∨ f = false)
    · simp only [hc, if_true, and_self]
      rw [after_check]
      by_cases hm : rc + 1 ≥ max
      · simp only [hm, if_true]
        by_cases hr : retryable kind a = true
        · simp [hr, count, Apart]
        · simp [hr, count, Apart]
      · simp only [hm, if_false]
        by_cases hr : retryable kind a = true
        · simp only [hr, if_true]
          obtain ⟨i1, i2, i3⟩ := ih (rc + 1) (now + took + if 0 < delay then delay else 0)
          refine ⟨by simp [i1, count], fun u rest h => (by injection h with h _; exact h.symm), ?_⟩
          cases hl : attemptsAt kind max delay (rc + 1) (now + took + if 0 < delay then delay else 0) as with
          | nil => exact trivial
          | cons u rest =>
            rw [hl] at i3
            refine ⟨?_, i3⟩
            rw [i2 u rest hl]
            split <;> linarith
        · simp [hr, count, Apart]
    · rw [if_neg hc, if_neg hc]
      exact ⟨rfl, fun _ _ h => (by cases h), trivial⟩

/-- **C95**, attempts of one call: as many as `Verif.Client` counts (C43), the first at once, the others at least the retry delay apart. -/
theorem C95_attempts (kind : Kind) (max : Int) (delay now : ℚ) (as : List (Bool × Attempt × ℚ)) (ht : ∀ a ∈ as, 0 ≤ a.2.2) :
    (attemptsAt kind max delay 0 now as).length = (retryLoop kind max (as.map fun a => (a.1, a.2.1))).2 ∧
    (∀ u rest, attemptsAt kind max delay 0 now as = u :: rest → u = now) ∧ Apart delay (attemptsAt kind max delay 0 now as) := by
  rw [retryLoop_eq]
  have key := attempts_from kind max delay as ht
  exact ⟨(key 0 now).1, (key 0 now).2.1, (key 0 now).2.2⟩

example : attemptsAt .persistent 3 (1 / 10) 0 5 [(false, .broken true, 1 / 2), (false, .timeout, 2), (false, .timeout, 2)] = [5, 56 / 10, 77 / 10] := by
  decide +kernel

/-- **C95 is false of what reaches the network**: the client repeats an attempt that failed after its own retry delay. With a wait period of 10 and the
defaults of the client (three attempts, a tenth of a second between them) the message handed over at 110 is written to the network at 110 and, after the
peer broke the connection half a second later, again at 110.6. -/
theorem C95_transmissions_refuted :
    ∃ s, TReach exCfg 10 s ∧ handed s.trace = [110] ∧
      attemptsAt .transient 3 (1 / 10) 0 110 [(false, .broken true, 1 / 2), (false, .reply "{}", 1)] = [110, 110 + 6 / 10] :=
  ⟨(trun exCfg 10 exT [.event (.enqueue 8 [18]), .event (.start 0), .tick 10, .wake 0]).get (by decide +kernel),
    trun_reach (exT_reach 10) (Option.some_get _).symm, by decide +kernel, by decide +kernel⟩

/-- **C95**, part that holds of what reaches the network: with a client that makes a single attempt, a message handed over is written at most once, at that
moment, so that `C95_paced` is about the network too. -/
theorem C95_single_attempt_partial (kind : Kind) {max : Int} (hm : max ≤ 1) (delay now : ℚ) (as : List (Bool × Attempt × ℚ)) :
    attemptsAt kind max delay 0 now as = [] ∨ attemptsAt kind max delay 0 now as = [now] := by
  cases as with
  | nil => exact .inl rfl
  | cons a as =>
    obtain ⟨f, a, took⟩ := a
    simp only [attemptsAt]
    split
    · rw [after_check, if_pos (show (0 : Int) + 1 ≥ max by omega)]
      refine .inr ?_
      split
      · rename_i heq; split at heq <;> cases heq
      · rfl
    · exact .inl rfl

example : attemptsAt .datagram 1 (1 / 10) 0 5 [(false, .timeout, 1), (false, .reply "{}", 1)] = [5] := by decide +kernel

/-! ### C20 -/

/-- **C20**, part that holds for senders that wait: from a paused state, no sequence of events without an unpause or reprocess command hands over more than
the one message that a worker was waiting to send. -/
theorem C20_waiting_sender_partial {cfg : Cfg K D M R S} (hc : cfg.codecs.Lawful) {wait : ℚ} {s s'} (h : TReach cfg wait s)
    (hp : s.core.paused = true) (ls : List (TLabel K D R)) (hls : ∀ l ∈ ls, ¬ Unpauses l) (hs : trun cfg wait s ls = some s') :
    s'.core.paused = true ∧ (handed s'.trace = handed s.trace ∨
      ((∃ t, s.sleeping t ≠ none) ∧ ∃ u, handed s'.trace = u :: handed s.trace)) := by
  have key : ∀ (ls : List (TLabel K D R)) (s1 : Timed K D M R S), TReach cfg wait s1 → s1.core.paused = true → (∀ l ∈ ls, ¬ Unpauses l) →
      trun cfg wait s1 ls = some s' → s'.core.paused = true ∧ ((handed s'.trace = handed s1.trace ∧ ∀ t, s1.sleeping t = none → s'.sleeping t = none) ∨
      ((∃ t, s1.sleeping t ≠ none) ∧ (∀ t, s'.sleeping t = none) ∧ ∃ u, handed s'.trace = u :: handed s1.trace)) := by
    intro ls
    induction ls with
    | nil => intro s1 _ h2 _ h4; rw [← Option.some.inj h4]; exact ⟨h2, .inl ⟨rfl, fun _ h => h⟩⟩
    | cons l ls ih =>
      intro s1 h1 h2 h3 h4
      simp only [trun] at h4
      cases hl : tstep cfg wait s1 l with
      | none => rw [hl] at h4; cases h4
      | some s2 =>
        rw [hl] at h4
        obtain ⟨g1, g2⟩ := paused_step hc (treach_inv hc h1) h2 (by
          intro e he hu
          subst he
          refine h3 (.event e) (by simp) ?_
          cases e with
          | unpause => exact trivial
          | reprocessAll => exact trivial
          | reprocessOne _ => exact trivial
          | _ => exact hu) hl
        obtain ⟨i1, i2⟩ := ih s2 (.step h1 hl) g1 (fun l hl => h3 l (by simp [hl])) h4
        refine ⟨i1, ?_⟩
        rcases g2 with ⟨a1, a2⟩ | ⟨a1, a2, a3⟩
        · rcases i2 with ⟨b1, b2⟩ | ⟨⟨t, b1⟩, b2, u, b3⟩
          · exact .inl ⟨b1.trans a1, fun t ht => b2 t (a2 t ht)⟩
          · exact .inr ⟨⟨t, fun ht => b1 (a2 t ht)⟩, b2, u, by rw [b3, a1]⟩
        · rcases i2 with ⟨b1, b2⟩ | ⟨⟨t, b1⟩, _, _⟩
          · exact .inr ⟨a1, fun t => b2 t (a2 t), _, b1.trans a3⟩
          · exact absurd (a2 t) b1
  obtain ⟨g1, g2⟩ := key ls s h hp hls hs
  refine ⟨g1, ?_⟩
  rcases g2 with ⟨a, _⟩ | ⟨a, _, b⟩
  · exact .inl a
  · exact .inr ⟨a, b⟩

/-- Message 8 has been queued and taken from the queue; while its worker waits, sending is paused. -/
def exPaused : Timed Nat (List Nat) Nat Nat (PEntry Nat (List Nat) Nat ⊕ EEntry Nat (List Nat) Nat Nat) :=
  (trun exCfg 10 exT [.event (.enqueue 8 [18]), .event (.start 0), .event .pause]).get (by decide +kernel)

/-- **C20 is false for senders that wait**: sending is paused before anything was sent; ten seconds later, still paused, message 8 is sent. -/
theorem C20_waiting_refuted :
    ∃ s s', TReach exCfg 10 s ∧ s.core.paused = true ∧ s.trace = [] ∧
      trun exCfg 10 s [.tick 10, .wake 0] = some s' ∧ s'.core.paused = true ∧ s'.trace = [(110, .sent 8)] :=
  ⟨exPaused, (trun exCfg 10 exPaused [.tick 10, .wake 0]).get (by decide +kernel),
    trun_reach (exT_reach 10) (Option.some_get _).symm, by decide +kernel, by decide +kernel, (Option.some_get _).symm, by decide +kernel, by decide +kernel⟩

end Verif.Pace
