import Verif.Pace.Spec
import Verif.Buffered.Steps
import Verif.Buffered.Drain
import Verif.Buffered.Awake
import Mathlib.Tactic.Linarith

/-!
# Lemmas about senders with a clock
-/

set_option linter.unusedSectionVars false

namespace Verif.Pace

open Verif.Py Verif.Pending Verif.Buffered Verif.Client

variable {K D M R S : Type} [DecidableEq K]

/-! ### tasks -/

theorem check_tasks (s : St K D M R S) : s.check.tasks = s.tasks ∨ s.check.tasks = s.tasks ++ [.scheduled] := by
  unfold St.check
  split
  · exact .inr rfl
  · exact .inl rfl

theorem loop_tasks (cfg : Cfg K D M R S) (s : St K D M R S) (t : Nat) : ∃ x, (s.loop cfg t).tasks = s.tasks.set t x := by
  unfold St.loop
  split
  · split
    · exact ⟨.done, by rw [endTask_tasks]⟩
    · exact ⟨.done, by rw [endTask_tasks]⟩
    · split
      · exact ⟨.done, by rw [endTask_tasks]; rfl⟩
      · exact ⟨_, rfl⟩
  · exact ⟨.done, by rw [endTask_tasks]⟩

theorem afterPush_tasks (cfg : Cfg K D M R S) (s : St K D M R S) (t : Nat) (k : K) (p) :
    ∃ x, (s.afterPush cfg t k p).tasks = s.tasks.set t x := by
  unfold St.afterPush
  split
  · exact ⟨.done, by rw [endTask_tasks]; rfl⟩
  · exact loop_tasks cfg _ t

theorem start_tasks {cfg : Cfg K D M R S} {s c : St K D M R S} {t : Nat} (h : s.start cfg t = some c) :
    s.tasks[t]? = some .scheduled ∧ ∃ x, c.tasks = s.tasks.set t x := by
  unfold St.start at h
  split at h
  · rename_i ht
    rw [← Option.some.inj h]
    exact ⟨ht, loop_tasks cfg _ t⟩
  · cases h

theorem finish_tasks {cfg : Cfg K D M R S} {s c : St K D M R S} {t : Nat} {o} (h : s.finish cfg t o = some c) :
    (∃ e, s.tasks[t]? = some (.inFlight e)) ∧ ∃ x, c.tasks = s.tasks.set t x := by
  unfold St.finish at h
  split at h
  · rename_i e ht
    rw [← Option.some.inj h]
    refine ⟨⟨e, ht⟩, ?_⟩
    cases o with
    | ok => exact loop_tasks cfg _ t
    | retry =>
      dsimp only
      split
      · exact afterPush_tasks cfg _ t _ _
      · exact afterPush_tasks cfg _ t _ _
    | fatal r => exact afterPush_tasks cfg _ t _ _
    | raise => exact ⟨.done, by rw [endTask_tasks]; rfl⟩
  · cases h

theorem raise_tasks {cfg : Cfg K D M R S} {s c : St K D M R S} {t : Nat} (h : s.finish cfg t .raise = some c) :
    c.tasks = s.tasks.set t .done := by
  unfold St.finish at h
  split at h
  · rw [← Option.some.inj h, endTask_tasks]; rfl
  · cases h

/-- Events other than those of workers. -/
theorem quiet_tasks {cfg : Cfg K D M R S} {s c : St K D M R S} {l : Sender.Label K D R} (h1 : ∀ t, l ≠ .start t) (h2 : ∀ t o, l ≠ .finish t o)
    (h : Sender.step cfg s l = some c) : c.tasks = s.tasks ∨ c.tasks = s.tasks ++ [.scheduled] := by
  cases l with
  | start t => exact absurd rfl (h1 t)
  | finish t o => exact absurd rfl (h2 t o)
  | enqueue k d =>
    simp only [Sender.step, Option.some.injEq] at h
    subst h
    split
    · exact .inl rfl
    · exact check_tasks _
  | pause => simp only [Sender.step, Option.some.injEq] at h; subst h; exact .inl rfl
  | unpause => simp only [Sender.step, Option.some.injEq] at h; subst h; exact check_tasks _
  | clearErrors => simp only [Sender.step, Option.some.injEq] at h; subst h; exact .inl rfl
  | popError k =>
    simp only [Sender.step, Option.some.injEq] at h; subst h
    unfold St.popError
    split <;> exact .inl rfl
  | reprocessAll =>
    simp only [Sender.step, Option.some.injEq] at h; subst h
    unfold St.reprocessAll
    split
    · exact check_tasks _
    · exact .inl rfl
    · exact .inl rfl
  | reprocessOne k =>
    simp only [Sender.step, Option.some.injEq] at h; subst h
    unfold St.reprocessOne
    split
    · exact check_tasks _
    · exact check_tasks _
    · exact .inl rfl

theorem quiet_inFlight {s c : St K D M R S} (h : c.tasks = s.tasks ∨ c.tasks = s.tasks ++ [.scheduled]) {t : Nat} {e} :
    c.tasks[t]? = some (.inFlight e) ↔ s.tasks[t]? = some (.inFlight e) := by
  rcases h with h | h
  · rw [h]
  · rw [h, List.getElem?_append]
    split
    · rfl
    · rename_i hge
      rw [List.getElem?_eq_none (l := s.tasks) (by omega)]
      constructor
      · intro hx
        cases hn : t - s.tasks.length with
        | zero => rw [hn] at hx; simp at hx
        | succ n => rw [hn] at hx; simp at hx
      · intro hx; cases hx

/-- After an event of worker `t` only that worker can have a message. -/
theorem worker_inFlight {s : St K D M R S} (hT : Tasks s) {t : Nat} {y} (ht : s.tasks[t]? = some y) (hy : y ≠ .done) {l : List (Task K D M)} {x}
    (hl : l = s.tasks.set t x) {t' : Nat} {e} (h : l[t']? = some (.inFlight e)) : t' = t := by
  by_contra hne
  rw [hl, List.getElem?_set_ne (fun e => hne e.symm)] at h
  exact absurd (hT.onlyTask ht hy t' _ hne h) (by simp)

/-! ### the invariant -/

/-- What holds of every reachable state. -/
structure TInv (cfg : Cfg K D M R S) (wait : ℚ) (s : Timed K D M R S) : Prop where
  reach : SReach cfg Any s.core
  past : ∀ x ∈ s.trace, x.1 ≤ s.now
  sleep : ∀ t u, s.sleeping t = some u → 0 < wait ∧ (∃ e, s.core.tasks[t]? = some (.inFlight e)) ∧ (∀ x ∈ s.trace, x.1 + wait ≤ u) ∧
    u ≤ s.now + wait
  paced : Paced wait s.trace
  turn : InTurn s.trace
  busy : ∀ t e, s.core.tasks[t]? = some (.inFlight e) → s.sleeping t = none → ∃ u rest, s.trace = (u, .sent e.key) :: rest
  idle : (∀ t e, s.core.tasks[t]? = some (.inFlight e) → s.sleeping t ≠ none) → s.trace = [] ∨ ∃ u k rest, s.trace = (u, .over k) :: rest

theorem inTurn_sent {u : ℚ} {k : K} {tr : List (ℚ × Mark K)} (h : InTurn tr) (hi : tr = [] ∨ ∃ u k rest, tr = (u, .over k) :: rest) :
    InTurn ((u, .sent k) :: tr) := by
  rcases hi with rfl | ⟨v, k', rest, rfl⟩
  · trivial
  · exact h

/-- The state after a worker's event, in which nothing is in flight, or worker `t` took a message. -/
theorem tinv_handOver {cfg : Cfg K D M R S} {wait : ℚ} {s : Timed K D M R S} {t : Nat} (hr : SReach cfg Any s.core)
    (hp : ∀ x ∈ s.trace, x.1 ≤ s.now) (hs : ∀ t, s.sleeping t = none) (hpa : Paced wait s.trace) (htu : InTurn s.trace)
    (hi : s.trace = [] ∨ ∃ u k rest, s.trace = (u, .over k) :: rest)
    (honly : ∀ t' e, s.core.tasks[t']? = some (.inFlight e) → t' = t) : TInv cfg wait (handOver wait s t) := by
  unfold handOver
  split
  · rename_i e he
    split
    · rename_i hw
      refine ⟨hr, hp, ?_, hpa, htu, ?_, ?_⟩
      · intro t' u hu
        dsimp only at hu ⊢
        split at hu
        · rename_i e'; subst e'
          simp only [Option.some.injEq] at hu
          refine ⟨hw, ⟨e, he⟩, fun x hx => ?_, le_of_eq hu.symm⟩
          have := hp x hx
          linarith
        · rw [hs] at hu; cases hu
      · intro t' e' h' hn
        have := honly t' e' h'
        subst this
        simp at hn
      · intro _; exact hi
    · rename_i hw
      refine ⟨hr, ?_, ?_, ?_, inTurn_sent htu hi, ?_, ?_⟩
      · intro x hx
        rcases List.mem_cons.mp hx with rfl | hx
        · exact le_refl _
        · exact hp x hx
      · intro t' u hu; rw [hs] at hu; cases hu
      · refine ⟨fun x hx => ?_, hpa⟩
        have := hp x hx
        linarith
      · intro t' e' h' _
        have := honly t' e' h'
        subst this
        dsimp only at h'
        rw [he] at h'
        cases h'
        exact ⟨_, _, rfl⟩
      · intro hall; exact absurd (hs t) (hall t e he)
  · rename_i hne
    refine ⟨hr, hp, ?_, hpa, htu, ?_, fun _ => hi⟩
    · intro t' u hu; rw [hs] at hu; cases hu
    · intro t' e' h' _
      have := honly t' e' h'
      subst this
      exact absurd h' (hne e')

theorem tinv_step {cfg : Cfg K D M R S} {wait : ℚ} (hc : cfg.codecs.Lawful) {s s' : Timed K D M R S} {l} (h : TInv cfg wait s)
    (hs : tstep cfg wait s l = some s') : TInv cfg wait s' := by
  obtain ⟨hT, _⟩ := h.reach.core hc
  cases l with
  | tick d =>
    simp only [tstep] at hs
    split at hs
    · rename_i hd
      simp only [Option.some.injEq] at hs; subst hs
      exact ⟨h.reach, fun x hx => le_trans (h.past x hx) (by dsimp only; linarith),
        fun t u hu => by obtain ⟨g1, g2, g3, g4⟩ := h.sleep t u hu; exact ⟨g1, g2, g3, by dsimp only; linarith⟩, h.paced, h.turn, h.busy, h.idle⟩
    · cases hs
  | wake t =>
    simp only [tstep] at hs
    split at hs
    · rename_i u e hu he
      split at hs
      · rename_i hle
        simp only [Option.some.injEq] at hs; subst hs
        obtain ⟨hw, _, hg, _⟩ := h.sleep t u hu
        have honly : ∀ (t' : Nat) e', s.core.tasks[t']? = some (.inFlight e') → t' = t := by
          intro t' e' h'
          by_contra hne
          exact absurd (hT.onlyTask he (by simp) t' _ hne h') (by simp)
        have hidle := h.idle (by
          intro t' e' h'
          rw [honly t' e' h', hu]; simp)
        refine ⟨h.reach, ?_, ?_, ⟨fun x hx => le_trans (hg x hx) hle, h.paced⟩, inTurn_sent h.turn hidle, ?_, ?_⟩
        · intro x hx
          rcases List.mem_cons.mp hx with rfl | hx
          · exact le_refl _
          · exact h.past x hx
        · intro t' u' hu'
          dsimp only at hu'
          split at hu'
          · cases hu'
          · rename_i hne
            obtain ⟨_, ⟨e', h'⟩, _⟩ := h.sleep t' u' hu'
            exact absurd (honly t' e' h') hne
        · intro t' e' h' _
          have := honly t' e' h'
          subst this
          dsimp only at h'
          rw [he] at h'
          cases h'
          exact ⟨_, _, rfl⟩
        · intro hall
          exact absurd (by simp) (hall t e he)
      · cases hs
    · cases hs
  | event l =>
    by_cases hl1 : ∃ t, l = .start t
    · obtain ⟨t, rfl⟩ := hl1
      simp only [tstep] at hs
      cases hst : Sender.step cfg s.core (.start t) with
      | none => rw [hst] at hs; cases hs
      | some c =>
        rw [hst] at hs
        simp only [Option.some.injEq] at hs; subst hs
        obtain ⟨ht, x, hx⟩ := start_tasks (show s.core.start cfg t = some c from hst)
        have hnone : ∀ (t' : Nat) e', s.core.tasks[t']? ≠ some (.inFlight e') := by
          intro t' e' h'
          by_cases hne : t' = t
          · subst hne; rw [ht] at h'; cases h'
          · exact absurd (hT.onlyTask ht (by simp) t' _ hne h') (by simp)
        have hsl : ∀ t', s.sleeping t' = none := by
          intro t'
          cases hu : s.sleeping t' with
          | none => rfl
          | some u => obtain ⟨_, ⟨e, he⟩, _⟩ := h.sleep t' u hu; exact absurd he (hnone t' e)
        exact tinv_handOver (.step h.reach trivial hst) h.past hsl h.paced h.turn (h.idle fun t' e' h' => absurd h' (hnone t' e'))
          (fun t' e' h' => worker_inFlight hT ht (by simp) hx h')
    · by_cases hl2 : ∃ t o, l = .finish t o
      · obtain ⟨t, o, rfl⟩ := hl2
        simp only [tstep] at hs
        cases hu : s.sleeping t with
        | some u =>
          rw [hu] at hs
          dsimp only at hs
          cases o with
          | raise =>
            cases hst : Sender.step cfg s.core (.finish t .raise) with
            | none => rw [hst] at hs; cases hs
            | some c =>
              rw [hst] at hs
              simp only [Option.some.injEq] at hs; subst hs
              have hx := raise_tasks (show s.core.finish cfg t .raise = some c from hst)
              obtain ⟨⟨e, he⟩, _⟩ := finish_tasks (show s.core.finish cfg t .raise = some c from hst)
              have hnone : ∀ (t' : Nat) e', c.tasks[t']? ≠ some (.inFlight e') := by
                intro t' e' h'
                have := worker_inFlight hT he (by simp) hx h'
                subst this
                rw [hx, List.getElem?_set] at h'
                simp only [if_true] at h'
                split at h' <;> cases h'
              have honly : ∀ (t' : Nat) e', s.core.tasks[t']? = some (.inFlight e') → t' = t := by
                intro t' e' h'
                by_contra hne
                exact absurd (hT.onlyTask he (by simp) t' _ hne h') (by simp)
              have hidle := h.idle (by
                intro t' e' h'
                rw [honly t' e' h', hu]; simp)
              refine ⟨.step h.reach trivial hst, h.past, ?_, h.paced, h.turn, fun t' e' h' => absurd h' (hnone t' e'), fun _ => hidle⟩
              intro t' u' hu'
              dsimp only at hu'
              split at hu'
              · cases hu'
              · rename_i hne
                obtain ⟨_, ⟨e', h'⟩, _⟩ := h.sleep t' u' hu'
                exact absurd (honly t' e' h') hne
          | _ => cases hs
        | none =>
          rw [hu] at hs
          split at hs
          · rename_i e heq; cases heq
          · rename_i e heq he
            cases hst : Sender.step cfg s.core (.finish t o) with
            | none => rw [hst] at hs; cases hs
            | some c =>
              rw [hst] at hs
              simp only [Option.some.injEq] at hs; subst hs
              obtain ⟨_, x, hx⟩ := finish_tasks (show s.core.finish cfg t o = some c from hst)
              have honly : ∀ (t' : Nat) e', s.core.tasks[t']? = some (.inFlight e') → t' = t := by
                intro t' e' h'
                by_contra hne
                exact absurd (hT.onlyTask he (by simp) t' _ hne h') (by simp)
              have hsl : ∀ t', s.sleeping t' = none := by
                intro t'
                cases hu' : s.sleeping t' with
                | none => rfl
                | some u =>
                  obtain ⟨_, ⟨e', he'⟩, _⟩ := h.sleep t' u hu'
                  rw [honly t' e' he', hu] at hu'; cases hu'
              obtain ⟨u, rest, htr⟩ := h.busy t e he hu
              refine tinv_handOver (.step h.reach trivial hst) ?_ hsl h.paced ?_ (.inr ⟨_, _, _, rfl⟩)
                (fun t' e' h' => worker_inFlight hT he (by simp) hx h')
              · intro x hx
                rcases List.mem_cons.mp hx with rfl | hx
                · exact le_refl _
                · exact h.past x hx
              · have := h.turn
                dsimp only
                rw [htr] at this ⊢
                exact ⟨rfl, this⟩
          · cases hs
      · have hs2 : (match Sender.step cfg s.core l with
            | some c => some { s with core := c }
            | none => none) = some s' := by
          cases l with
          | start t => exact absurd ⟨t, rfl⟩ hl1
          | finish t o => exact absurd ⟨t, o, rfl⟩ hl2
          | _ => exact hs
        cases hst : Sender.step cfg s.core l with
        | none => rw [hst] at hs2; cases hs2
        | some c =>
          rw [hst] at hs2
          simp only [Option.some.injEq] at hs2; subst hs2
          have hq := quiet_tasks (fun t e => hl1 ⟨t, e⟩) (fun t o e => hl2 ⟨t, o, e⟩) hst
          refine ⟨.step h.reach trivial hst, h.past, ?_, h.paced, h.turn, ?_, ?_⟩
          · intro t u hu
            obtain ⟨g1, ⟨e, g2⟩, g3, g4⟩ := h.sleep t u hu
            exact ⟨g1, ⟨e, (quiet_inFlight hq).mpr g2⟩, g3, g4⟩
          · intro t e he hn; exact h.busy t e ((quiet_inFlight hq).mp he) hn
          · intro hall; exact h.idle fun t e he => hall t e ((quiet_inFlight hq).mpr he)

theorem treach_inv {cfg : Cfg K D M R S} {wait : ℚ} (hc : cfg.codecs.Lawful) {s : Timed K D M R S} (h : TReach cfg wait s) : TInv cfg wait s := by
  induction h with
  | setup hq =>
    rename_i q now
    have hr : SReach cfg Any (Sender.setup cfg q) := .setup hq
    have hnone : ∀ (t : Nat) e, (Sender.setup cfg q).tasks[t]? ≠ some (.inFlight e) := by
      intro t e h
      have h1 : (Sender.setup cfg q).tasks = [] ∨ (Sender.setup cfg q).tasks = [.scheduled] ∨ (Sender.setup cfg q).tasks = [.scheduled, .scheduled] := by
        rcases check_tasks ((St.init cfg q).unpause) with g | g
        · rcases check_tasks ({ St.init cfg q with paused := false }) with g' | g'
          · exact .inl (g.trans g')
          · exact .inr (.inl (g.trans g'))
        · rcases check_tasks ({ St.init cfg q with paused := false }) with g' | g'
          · right; left; refine g.trans ?_; rw [show (St.init cfg q).unpause.tasks = _ from g']; rfl
          · right; right; refine g.trans ?_; rw [show (St.init cfg q).unpause.tasks = _ from g']; rfl
      rcases h1 with g | g | g <;> rw [g] at h
      · simp at h
      · cases t <;> simp at h
      · cases t with
        | zero => simp at h
        | succ n => cases n <;> simp at h
    refine ⟨hr, by simp [setup], by simp [setup], trivial, trivial, ?_, fun _ => .inl rfl⟩
    intro t e he; exact absurd he (hnone t e)
  | step _ hs ih => exact tinv_step hc ih hs

/-! ### pausing -/

theorem loop_paused {cfg : Cfg K D M R S} {s : St K D M R S} {t : Nat} (h : s.paused = true) : s.loop cfg t = s.endTask t := by
  unfold St.loop
  simp [h]

theorem afterPush_paused {cfg : Cfg K D M R S} {s : St K D M R S} {t : Nat} {k : K} {p} (h : s.paused = true) :
    (s.afterPush cfg t k p).tasks = s.tasks.set t .done := by
  unfold St.afterPush
  split
  · rw [endTask_tasks]; rfl
  · rw [loop_paused (by exact h), endTask_tasks]; rfl

theorem start_paused {cfg : Cfg K D M R S} {s c : St K D M R S} {t : Nat} (h : s.paused = true) (hs : s.start cfg t = some c) :
    c.tasks = s.tasks.set t .done := by
  unfold St.start at hs
  split at hs
  · rw [← Option.some.inj hs, loop_paused (by exact h), endTask_tasks]
  · cases hs

theorem finish_paused {cfg : Cfg K D M R S} {s c : St K D M R S} {t : Nat} {o} (h : s.paused = true) (hs : s.finish cfg t o = some c) :
    c.tasks = s.tasks.set t .done := by
  unfold St.finish at hs
  split at hs
  · rw [← Option.some.inj hs]
    cases o with
    | ok => dsimp only; rw [loop_paused (by exact h), endTask_tasks]; rfl
    | retry =>
      dsimp only
      split
      · exact afterPush_paused h
      · exact afterPush_paused h
    | fatal r => exact afterPush_paused h
    | raise => dsimp only; rw [endTask_tasks]; rfl
  · cases hs

theorem set_done_not {l : List (Task K D M)} {t : Nat} {e} : (l.set t .done)[t]? ≠ some (.inFlight e) := by
  intro h
  rw [List.getElem?_set] at h
  simp only [if_true] at h
  split at h <;> cases h

theorem handOver_done {wait : ℚ} {s : Timed K D M R S} {t : Nat} {l : List (Task K D M)} (h : s.core.tasks = l.set t .done) : handOver wait s t = s := by
  unfold handOver
  split
  · rename_i e he
    rw [h] at he
    exact absurd he set_done_not
  · rfl

/-- One event of a paused sender that does not unpause it. -/
theorem paused_step {cfg : Cfg K D M R S} {wait : ℚ} (hc : cfg.codecs.Lawful) {s s' : Timed K D M R S} {l} (h : TInv cfg wait s)
    (hp : s.core.paused = true) (hl : ∀ e, l = .event e → ¬ SUnpauses e) (hs : tstep cfg wait s l = some s') :
    s'.core.paused = true ∧ ((handed s'.trace = handed s.trace ∧ ∀ t, s.sleeping t = none → s'.sleeping t = none) ∨
      ((∃ t, s.sleeping t ≠ none) ∧ (∀ t, s'.sleeping t = none) ∧ handed s'.trace = s.now :: handed s.trace)) := by
  obtain ⟨hT, lp, le, hi⟩ := h.reach.core hc
  cases l with
  | tick d =>
    simp only [tstep] at hs
    split at hs
    · simp only [Option.some.injEq] at hs; subst hs; exact ⟨hp, .inl ⟨rfl, fun _ h => h⟩⟩
    · cases hs
  | wake t =>
    simp only [tstep] at hs
    split at hs
    · rename_i u e hu he
      split at hs
      · simp only [Option.some.injEq] at hs; subst hs
        refine ⟨hp, .inr ⟨⟨t, by rw [hu]; simp⟩, fun t' => ?_, rfl⟩⟩
        dsimp only
        split
        · rfl
        · rename_i hne
          cases hu' : s.sleeping t' with
          | none => rfl
          | some u' =>
            obtain ⟨_, ⟨e', h'⟩, _⟩ := h.sleep t' u' hu'
            exact absurd (hT.onlyTask he (by simp) t' _ hne h') (by simp)
      · cases hs
    · cases hs
  | event l =>
    by_cases hl1 : ∃ t, l = .start t
    · obtain ⟨t, rfl⟩ := hl1
      simp only [tstep] at hs
      cases hst : Sender.step cfg s.core (.start t) with
      | none => rw [hst] at hs; cases hs
      | some c =>
        rw [hst] at hs
        simp only [Option.some.injEq] at hs
        rw [handOver_done (s := { s with core := c }) (start_paused hp hst)] at hs
        subst hs
        exact ⟨(paused_start hc hT hi hp hst).1, .inl ⟨rfl, fun _ h => h⟩⟩
    · by_cases hl2 : ∃ t o, l = .finish t o
      · obtain ⟨t, o, rfl⟩ := hl2
        simp only [tstep] at hs
        cases hu : s.sleeping t with
        | some u =>
          rw [hu] at hs
          dsimp only at hs
          cases o with
          | raise =>
            cases hst : Sender.step cfg s.core (.finish t .raise) with
            | none => rw [hst] at hs; cases hs
            | some c =>
              rw [hst] at hs
              simp only [Option.some.injEq] at hs; subst hs
              refine ⟨(paused_finish (t := t) (o := .raise) hc hT hi hp hst).1, .inl ⟨rfl, fun t' ht' => ?_⟩⟩
              dsimp only
              split
              · rfl
              · exact ht'
          | _ => cases hs
        | none =>
          rw [hu] at hs
          split at hs
          · rename_i e heq; cases heq
          · rename_i e heq he
            cases hst : Sender.step cfg s.core (.finish t o) with
            | none => rw [hst] at hs; cases hs
            | some c =>
              rw [hst] at hs
              simp only [Option.some.injEq] at hs
              rw [handOver_done (s := { s with core := c, trace := (s.now, .over e.key) :: s.trace }) (finish_paused hp hst)] at hs
              subst hs
              exact ⟨(paused_finish hc hT hi hp hst).1, .inl ⟨rfl, fun _ h => h⟩⟩
          · cases hs
      · have hs2 : (match Sender.step cfg s.core l with
            | some c => some { s with core := c }
            | none => none) = some s' := by
          cases l with
          | start t => exact absurd ⟨t, rfl⟩ hl1
          | finish t o => exact absurd ⟨t, o, rfl⟩ hl2
          | _ => exact hs
        cases hst : Sender.step cfg s.core l with
        | none => rw [hst] at hs2; cases hs2
        | some c =>
          rw [hst] at hs2
          simp only [Option.some.injEq] at hs2; subst hs2
          have hw : ¬ SWork l := by
            cases l with
            | start t => exact absurd ⟨t, rfl⟩ hl1
            | finish t o => exact absurd ⟨t, o, rfl⟩ hl2
            | _ => exact id
          exact ⟨(s_quiet hst hw).2 (hl l rfl) hp, .inl ⟨rfl, fun _ h => h⟩⟩

/-! ### lists of moments -/

theorem paced_handed {wait : ℚ} : ∀ {tr : List (ℚ × Mark K)}, Paced wait tr → (handed tr).Pairwise (fun a b => b + wait ≤ a)
  | [], _ => .nil
  | (u, .sent k) :: rest, h => by
    refine .cons (fun x hx => ?_) (paced_handed h.2)
    have : ∃ y ∈ rest, y.1 = x := by
      clear h
      induction rest with
      | nil => simp [handed] at hx
      | cons y ys ih =>
        obtain ⟨v, m⟩ := y
        cases m with
        | sent k' =>
          simp only [handed, List.mem_cons] at hx
          rcases hx with rfl | hx
          · exact ⟨_, List.mem_cons_self, rfl⟩
          · obtain ⟨z, hz, e⟩ := ih hx; exact ⟨z, List.mem_cons_of_mem _ hz, e⟩
        | over k' =>
          obtain ⟨z, hz, e⟩ := ih hx; exact ⟨z, List.mem_cons_of_mem _ hz, e⟩
    obtain ⟨y, hy, rfl⟩ := this
    exact h.1 y hy
  | (_, .over _) :: rest, h => paced_handed (tr := rest) h

/-- Moments at least `wait` apart within an interval. -/
theorem count_window {wait : ℚ} (hw : 0 ≤ wait) (a b : ℚ) : ∀ {l : List ℚ}, l.Pairwise (fun x y => y + wait ≤ x) → (∀ x ∈ l, a ≤ x ∧ x ≤ b) → l ≠ [] →
    ((l.length : ℚ) - 1) * wait ≤ b - a
  | [], _, _, hne => absurd rfl hne
  | [x], _, hin, _ => by
    have := hin x (by simp)
    simp only [List.length_singleton, Nat.cast_one, sub_self, zero_mul]
    linarith
  | x :: y :: rest, hp, hin, _ => by
    have hp' := List.pairwise_cons.mp hp
    have h1 := hp'.1 y (by simp)
    have h2 := hin x (by simp)
    have ih := count_window hw a (x - wait) (l := y :: rest) hp'.2 (by
      intro z hz
      refine ⟨(hin z (by simp [List.mem_cons.mp hz])).1, ?_⟩
      have := hp'.1 z hz
      linarith) (by simp)
    simp only [List.length_cons] at ih ⊢
    push_cast at ih ⊢
    linarith

end Verif.Pace
