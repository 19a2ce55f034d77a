import Verif.Buffered.Awake
import Verif.Pending.Props

/-!
# Properties C16 to C20 and C22 to C26 of buffered endpoints and senders
-/

set_option linter.unusedSectionVars false

namespace Verif.Buffered

open Verif.Py Verif.Queue Verif.Queue.Spec Verif.Pending

variable {K D M R S : Type} [DecidableEq K]

/-! ### examples -/

/-- Configuration of the examples: three attempts; payloads that contain a zero do not validate. -/
def exCfg : Cfg Nat (List Nat) Nat Nat (PEntry Nat (List Nat) Nat ⊕ EEntry Nat (List Nat) Nat Nat) where
  codecs := idCodecs
  maxRetries := 3
  build := fun d => if 0 ∈ d then none else some d
  keep := id
  noMeta := 0
  reason := 77

theorem exCfg_idem : ∀ d d', exCfg.build d = some d' → exCfg.build d' = some d' := by
  intro d d' h
  simp only [exCfg] at h ⊢
  split at h
  · cases h
  · rename_i h0; simp only [Option.some.injEq] at h; subst h; simp [h0]

/-- Two pending and three failed messages. -/
def exH : Handler.HSt Nat (List Nat) Nat Nat (PEntry Nat (List Nat) Nat ⊕ EEntry Nat (List Nat) Nat Nat) := Handler.setup exCfg sample

theorem exH_reach : HReach exCfg Any exH := .setup sample_reach

/-- Empty queues, pages of two. -/
def emptyH : Handler.HSt Nat (List Nat) Nat Nat (PEntry Nat (List Nat) Nat ⊕ EEntry Nat (List Nat) Nat Nat) := Handler.setup exCfg (Pair.open 2 [] [])

theorem emptyH_reach : HReach exCfg Any emptyH := .setup (.new (by decide))

/-- The same as a sender. -/
def emptyS : St Nat (List Nat) Nat Nat (PEntry Nat (List Nat) Nat ⊕ EEntry Nat (List Nat) Nat Nat) :=
  Sender.setup exCfg (Pair.open 2 [] [])

theorem emptyS_reach : SReach exCfg Any emptyS := .setup (.new (by decide))

/-! ### facts about reachable states -/

theorem hfacts {cfg : Cfg K D M R S} (hc : cfg.codecs.Lawful) {s} (h : HReach cfg Any s) {lp le} (hl : PairHolds cfg.codecs s.core.pair lp le)
    (hf : Fresh s.core.log) :
    ∃ a, HAmounts cfg s a ∧ a.lp = lp ∧ a.le = le ∧ WF a ∧ Facts cfg ⟨false, true, false⟩ a := by
  obtain ⟨lp0, le0, a, h1, h2, h3, h4, h5, h6⟩ := hreach_amounts ⟨false, true, false⟩ hc (by simp) h
  obtain ⟨w0, f0⟩ := facts_ofLists (cfg := cfg) (b := ⟨false, true, false⟩) h1 h2 h3 h4
  obtain ⟨hw, hfa⟩ := micros_ind facts_micro h5 ⟨w0, fun _ => f0⟩
  exact ⟨a, h6, (holds_unique hl.p h6.core.inv.holds.p).symm, (holds_unique hl.e h6.core.inv.holds.e).symm, hw,
    hfa (h6.core.log ▸ hf)⟩

theorem sfacts {cfg : Cfg K D M R S} (hc : cfg.codecs.Lawful) {s} (h : SReach cfg Any s) {lp le} (hl : PairHolds cfg.codecs s.pair lp le)
    (hf : Fresh s.log) :
    ∃ a, Amounts cfg s a ∧ a.ext = [] ∧ a.lp = lp ∧ a.le = le ∧ WF a ∧ Facts cfg ⟨true, true, true⟩ a := by
  obtain ⟨lp0, le0, a, h1, h2, h3, h4, h5, h6, h7⟩ := sreach_amounts ⟨true, true, true⟩ hc (by simp) h
  obtain ⟨w0, f0⟩ := facts_ofLists (cfg := cfg) (b := ⟨true, true, true⟩) h1 h2 h3 h4
  obtain ⟨hw, hfa⟩ := micros_ind facts_micro h5 ⟨w0, fun _ => f0⟩
  exact ⟨a, h6, h7, (holds_unique hl.p h6.inv.holds.p).symm, (holds_unique hl.e h6.inv.holds.e).symm, hw,
    hfa (h6.log ▸ hf)⟩

/-- A reachable endpoint holds definite queue contents. -/
theorem C16_content {cfg : Cfg K D M R S} (hc : cfg.codecs.Lawful) {s} (h : HReach cfg Any s) :
    ∃ lp le, PairHolds cfg.codecs s.core.pair lp le ∧ ∀ lp' le', PairHolds cfg.codecs s.core.pair lp' le' → lp' = lp ∧ le' = le := by
  obtain ⟨_, lp, le, h'⟩ := h.core hc
  exact ⟨lp, le, h'.holds, fun _ _ g => ⟨holds_unique g.p h'.holds.p, holds_unique g.e h'.holds.e⟩⟩

/-- A reachable sender holds definite queue contents. -/
theorem C24_content {cfg : Cfg K D M R S} (hc : cfg.codecs.Lawful) {s} (h : SReach cfg Any s) :
    ∃ lp le, PairHolds cfg.codecs s.pair lp le ∧ ∀ lp' le', PairHolds cfg.codecs s.pair lp' le' → lp' = lp ∧ le' = le := by
  obtain ⟨_, lp, le, h'⟩ := h.core hc
  exact ⟨lp, le, h'.holds, fun _ _ g => ⟨holds_unique g.p h'.holds.p, holds_unique g.e h'.holds.e⟩⟩

/-! ### C16 -/

/-- **C16**, never more attempts: no message is handed to the handler more than `max(1, max_retries)` times
(counted since it was accepted or moved back by an operator; messages found at start-up keep their count,
which is below the limit unless the limit was lowered in between). -/
theorem C16_attempts_bounded {cfg : Cfg K D M R S} (hc : cfg.codecs.Lawful) {s} (h : HReach cfg Any s) (hf : Fresh s.core.log)
    (hfound : ∀ e, .found e ∈ s.core.log → e.retries < cap cfg) (k : K) : attempts k s.core.log ≤ cap cfg := by
  obtain ⟨lp, le, hl, _⟩ := C16_content hc h
  obtain ⟨a, ha, _, _, _, hfa⟩ := hfacts hc h hl hf
  rw [ha.core.log] at hfound ⊢
  exact (hfa.bound hfound).2.2.1 k

/-- **C16**, never fewer: what is in the error queue was there at start-up, or was attempted exactly
`max(1, max_retries)` times and carries the reason "Max retries reached.". -/
theorem C16_failed_after_all_attempts {cfg : Cfg K D M R S} (hc : cfg.codecs.Lawful) {s} (h : HReach cfg Any s) (hf : Fresh s.core.log)
    (hfound : ∀ e, .found e ∈ s.core.log → e.retries < cap cfg) {lp le} (hl : PairHolds cfg.codecs s.core.pair lp le) :
    ∀ x ∈ le, .foundFailed x.2 ∈ s.core.log ∨ (x.2.reason = cfg.reason ∧ attempts x.1 s.core.log = cap cfg) := by
  obtain ⟨a, ha, _, rfl, _, hfa⟩ := hfacts hc h hl hf
  rw [ha.core.log] at hfound ⊢
  intro x hx
  rcases (hfa.bound hfound).2.2.2 x hx with g | g | g
  · exact .inl g
  · cases g
  · exact .inr g

/-- **C16**, success ends it: after a message was handled it is never started again and is in neither
queue, not being handled and not waiting to be queued. -/
theorem C16_success_is_final {cfg : Cfg K D M R S} (hc : cfg.codecs.Lawful) {s} (h : HReach cfg Any s) (hf : Fresh s.core.log)
    {lp le} (hl : PairHolds cfg.codecs s.core.pair lp le) :
    Settled s.core.log ∧ ∀ k, .succeeded k ∈ s.core.log →
      k ∉ keys lp ∧ k ∉ keys le ∧ (∀ e ∈ inFlight s.core.tasks, e.key ≠ k) ∧ ∀ x ∈ s.jobs, x.1 ≠ k := by
  obtain ⟨a, ha, rfl, rfl, _, hfa⟩ := hfacts hc h hl hf
  rw [ha.core.log, ha.core.fl, ha.ext]
  refine ⟨hfa.settled, fun k hk => ?_⟩
  have h1 := hfa.one (ha.core.log ▸ hf) k _ rfl
  have h2 := count_pos.mpr (handled_mem.mpr hk)
  refine ⟨?_, ?_, ?_, ?_⟩
  · rw [← count_eq_zero]; omega
  · rw [← count_eq_zero]; omega
  · intro e he hek
    have : 0 < (a.fl.map PEntry.key).count k := count_pos.mpr (List.mem_map.mpr ⟨e, he, hek⟩)
    omega
  · intro x hx hxk
    have : 0 < (a.ext.map Prod.fst).count k := count_pos.mpr (List.mem_map.mpr ⟨x, hx, hxk⟩)
    omega

theorem fresh_flying {cfg : Cfg K D M R S} (hc : cfg.codecs.Lawful) {s} (h : HReach cfg Any s) (hf : Fresh s.core.log)
    {lp le} (hl : PairHolds cfg.codecs s.core.pair lp le) {t : Nat} {e} (ht : s.core.tasks[t]? = some (.inFlight e)) :
    e.key ∉ keys lp ∧ e.key ∉ keys le ∧ e.retries + 1 = attempts e.key s.core.log := by
  obtain ⟨a, ha, rfl, rfl, _, hfa⟩ := hfacts hc h hl hf
  have hfl : a.fl = [e] := by
    rw [← ha.core.fl]; exact inFlight_get (ha.core.tasks.onlyTask ht (by simp)) ht
  have hf' := ha.core.log ▸ hf
  refine ⟨hfa.notPending hf' (.inr (.inl (by rw [hfl]; simp))), hfa.notFailed hf' (.inr (.inl (by rw [hfl]; simp))), ?_⟩
  rw [ha.core.log]; exact hfa.fly e (by rw [hfl]; simp)

/-- **C16**, what a failed attempt leads to: while the attempts made are fewer than `max_retries` the
message goes to the end of the pending queue with that count, otherwise to the end of the error queue with
"Max retries reached."; then the worker looks at the pending queue again. -/
theorem C16_failure_result {cfg : Cfg K D M R S} (hc : cfg.codecs.Lawful) {s s'} (h : HReach cfg Any s) (hf : Fresh s.core.log)
    {lp le} (hl : PairHolds cfg.codecs s.core.pair lp le) {t : Nat} {e} (ht : s.core.tasks[t]? = some (.inFlight e))
    (hs : Handler.step cfg s (.finish t .retry) = some s') {n : Nat} (hn : n = attempts e.key s.core.log) :
    (((n : Int) < cfg.maxRetries) → PairHolds cfg.codecs s'.core.pair
      (turn (R := R) cfg.build s.core.paused (lp ++ [(e.key, ⟨e.key, n, e.data, cfg.keep e.md⟩)])).1 le) ∧
    (cfg.maxRetries ≤ (n : Int) → PairHolds cfg.codecs s'.core.pair
      (turn (R := R) cfg.build s.core.paused lp).1 (le ++ [(e.key, ⟨e.key, e.data, cfg.reason, cfg.keep e.md⟩)])) := by
  obtain ⟨hT, lp0, le0, hi0⟩ := h.core hc
  have hi := inv_of hi0 hl
  obtain ⟨n1, n2, n3⟩ := fresh_flying hc h hf hl ht
  simp only [Handler.step, Option.map_eq_some_iff] at hs
  obtain ⟨c, hcs, rfl⟩ := hs
  obtain ⟨g, _⟩ := finish_turn hc hT hi ht (by simp) hcs
  subst hn
  rw [← n3]
  constructor
  · intro hlt
    simp only [settle, if_neg (not_le.mpr hlt), Spec.push, if_neg n1] at g
    exact g.holds
  · intro hge
    simp only [settle, ge_iff_le, if_pos hge, Spec.push, if_neg n2] at g
    exact g.holds

example : ∃ s s', HReach exCfg Any s ∧ Fresh s.core.log ∧ s.core.tasks[0]? = some (.inFlight ⟨1, 0, [11], 101⟩) ∧
    attempts 1 s.core.log = 1 ∧ Handler.step exCfg s (.finish 0 .retry) = some s' ∧ s'.core.pair.pending.size = 1 + 1 - 1 ∧
    s'.core.tasks[0]? = some (.inFlight ⟨2, 3, [12], 102⟩) :=
  ⟨(hrun exCfg exH [.start 0]).get (by decide), (hrun exCfg exH [.start 0, .finish 0 .retry]).get (by decide),
    hrun_reach exH_reach (Option.some_get _).symm, by decide, by decide, by decide, by decide, by decide, by decide⟩

/-- Remaining attempts of a pending message. -/
def weight (c : Nat) (lp : List (K × PEntry K D M)) : Nat := (lp.map fun x => c - x.2.retries).sum

/-- **C16**, failing for ever: if from some moment on every attempt fails, then after finitely many attempts
the pending queue is empty, and the message that was being handled and all pending ones are in the error
queue with reason "Max retries reached." after exactly `max(1, max_retries)` attempts each. -/
theorem C16_all_fail {cfg : Cfg K D M R S} (hc : cfg.codecs.Lawful) (hid : ∀ d d', cfg.build d = some d' → cfg.build d' = some d')
    {s} (h : HReach cfg Any s) (hf : Fresh s.core.log) (hfound : ∀ e, .found e ∈ s.core.log → e.retries < cap cfg)
    {lp le} (hl : PairHolds cfg.codecs s.core.pair lp le) {t : Nat} {e} (ht : s.core.tasks[t]? = some (.inFlight e))
    (hp : s.core.paused = false) (hr : cfg.build e.data ≠ none) (hrl : ∀ x ∈ lp, cfg.build x.2.data ≠ none) :
    ∃ n s' new, hrun cfg s (List.replicate n (.finish t .retry)) = some s' ∧ PairHolds cfg.codecs s'.core.pair [] (le ++ new) ∧
      (keys new).Perm (e.key :: keys lp) ∧ ∀ x ∈ new, x.2.reason = cfg.reason ∧ attempts x.1 s'.core.log = cap cfg := by
  suffices main : ∀ (w : Nat) {s} (_ : HReach cfg Any s) (_ : Fresh s.core.log) (_ : ∀ e, .found e ∈ s.core.log → e.retries < cap cfg)
      {lp le} (_ : PairHolds cfg.codecs s.core.pair lp le) {e} (_ : s.core.tasks[t]? = some (.inFlight e))
      (_ : s.core.paused = false) (_ : cfg.build e.data ≠ none) (_ : ∀ x ∈ lp, cfg.build x.2.data ≠ none)
      (_ : w = (cap cfg - e.retries) + weight (cap cfg) lp),
      ∃ s' new, hrun cfg s (List.replicate w (.finish t .retry)) = some s' ∧ PairHolds cfg.codecs s'.core.pair [] (le ++ new) ∧
        (keys new).Perm (e.key :: keys lp) ∧ (∀ x ∈ new, x.2.reason = cfg.reason ∧ attempts x.1 s'.core.log = cap cfg) ∧
        ∀ k ∈ keys le, attempts k s'.core.log = attempts k s.core.log by
    obtain ⟨s', new, h1, h2, h3, h4, _⟩ := main _ h hf hfound hl ht hp hr hrl rfl
    exact ⟨_, s', new, h1, h2, h3, h4⟩
  intro w
  induction w with
  | zero =>
    intro s h hf hfound lp le hl e ht hp hr hrl hw
    exfalso
    obtain ⟨a, ha, rfl, rfl, _, hfa⟩ := hfacts hc h hl hf
    have hfl : a.fl = [e] := by
      rw [← ha.core.fl]; exact inFlight_get (ha.core.tasks.onlyTask ht (by simp)) ht
    have := (hfa.bound (ha.core.log ▸ hfound)).2.1 e (by rw [hfl]; simp)
    omega
  | succ w ih =>
    intro s h hf hfound lp le hl e ht hp hr hrl hw
    obtain ⟨hT, lp0, le0, hi0⟩ := h.core hc
    have hi := inv_of hi0 hl
    obtain ⟨n1, n2, n3⟩ := fresh_flying hc h hf hl ht
    obtain ⟨b1, b2⟩ : e.retries < cap cfg ∧ ∀ x ∈ lp, x.2.retries < cap cfg := by
      obtain ⟨a, ha, rfl, rfl, _, hfa⟩ := hfacts hc h hl hf
      have hfl : a.fl = [e] := by
        rw [← ha.core.fl]; exact inFlight_get (ha.core.tasks.onlyTask ht (by simp)) ht
      obtain ⟨g1, g2, _⟩ := hfa.bound (ha.core.log ▸ hfound)
      exact ⟨g2 e (by rw [hfl]; simp), g1⟩
    obtain ⟨c, hcs⟩ : ∃ c, s.core.finish cfg t .retry = some c := by
      unfold St.finish; rw [ht]; exact ⟨_, rfl⟩
    have hstep : Handler.step cfg s (.finish t .retry) = some { s with core := c } := by
      simp [Handler.step, hcs]
    have h' : HReach cfg Any { s with core := c } := .step h trivial hstep
    obtain ⟨g1, g2, g3, _, g5⟩ := finish_turn hc hT hi ht (by simp) hcs
    rw [hp] at g1 g2 g3 g5
    have hrun' : hrun cfg s (List.replicate (w + 1) (.finish t .retry)) =
        hrun cfg { s with core := c } (List.replicate w (.finish t .retry)) := by
      simp only [List.replicate_succ, hrun, hstep]
    -- what happens to the log
    have hfound' : ∀ (evs : List (Ev K D M R)), c.log = evs ++ .failed e.key :: s.core.log → (∀ x ∈ evs, ∃ e', x = .started e') →
        Fresh c.log ∧ ∀ e, .found e ∈ c.log → e.retries < cap cfg := by
      intro evs he hev
      constructor
      · have hk : known evs = [] := by
          clear he
          induction evs with
          | nil => rfl
          | cons y l ih =>
            obtain ⟨e', rfl⟩ := hev y (by simp)
            exact ih fun x hx => hev x (by simp [hx])
        rw [Fresh, he, known_append, hk]; exact hf
      · intro e1 he1
        rw [he] at he1
        simp only [List.mem_append, List.mem_cons, reduceCtorEq, false_or] at he1
        rcases he1 with he1 | he1
        · obtain ⟨e', h⟩ := hev _ he1; cases h
        · exact hfound e1 he1
    by_cases hge : ((e.retries + 1 : Nat) : Int) ≥ cfg.maxRetries
    · -- to the error queue
      have hcap : cap cfg = e.retries + 1 := by unfold cap at b1 ⊢; omega
      simp only [settle, if_pos hge, Spec.push, if_neg n2] at g1 g2 g5
      cases lp with
      | nil =>
        have hw0 : w = 0 := by simp [weight] at hw; omega
        subst hw0
        simp only [turn, List.nil_append, endEvent] at g1 g2
        refine ⟨{ s with core := c }, [(e.key, ⟨e.key, e.data, cfg.reason, cfg.keep e.md⟩)], hrun', g1.holds, by simp [keys], ?_, ?_⟩
        · intro x hx
          simp only [List.mem_singleton] at hx
          subst hx
          refine ⟨rfl, ?_⟩
          show attempts e.key c.log = _
          rw [g2]; show attempts e.key s.core.log = _; rw [← n3, hcap]
        · intro k hk; show attempts k c.log = _; rw [g2]; rfl
      | cons x rest =>
        obtain ⟨k2, e2⟩ := x
        have hk2 : e2.key = k2 := hl.pKeys (k2, e2) (by simp)
        cases hb2 : cfg.build e2.data with
        | none => exact absurd hb2 (hrl (k2, e2) (by simp))
        | some d2 =>
          simp only [turn, hb2, endEvent, List.mem_singleton] at g1 g2 g5
          obtain ⟨f1, f2⟩ := hfound' _ g2 (by simp)
          have hn2 : k2 ∉ keys le := by
            obtain ⟨a, ha, hlp, rfl, _, hfa⟩ := hfacts hc h hl hf
            exact hfa.notFailed (ha.core.log ▸ hf) (.inr (.inr (by rw [hlp]; simp [keys])))
          have hne : k2 ≠ e.key := fun e' => n1 (by rw [← e']; simp [keys])
          obtain ⟨s', new, i1, i2, i3, i4, i5⟩ := ih h' f1 f2 g1.holds (g5 _ rfl) g3 (by rw [hid _ _ hb2]; simp)
            (fun x hx => hrl x (by simp [hx])) (by
              have := b2 (k2, e2) (by simp)
              simp only [weight, List.map_cons, List.sum_cons] at hw ⊢
              omega)
          have hat : ∀ k, k ≠ k2 → attempts k c.log = attempts k s.core.log := by
            intro k hk
            rw [g2]; simp only [List.cons_append, List.nil_append, attempts, hk2]
            rw [if_neg (fun e => hk e.symm)]
          refine ⟨s', (e.key, ⟨e.key, e.data, cfg.reason, cfg.keep e.md⟩) :: new, hrun'.trans i1, by simpa using i2, ?_, ?_, ?_⟩
          · simp only [keys, List.map_cons] at i3 ⊢
            rw [hk2] at i3
            exact .cons _ i3
          · intro x hx
            simp only [List.mem_cons] at hx
            rcases hx with rfl | hx
            · refine ⟨rfl, ?_⟩
              show attempts e.key s'.core.log = _
              rw [i5 e.key (by simp [keys]), hat _ (fun e => hne e.symm), ← n3, hcap]
            · exact i4 x hx
          · intro k hk
            rw [i5 k (by simp only [keys, List.map_append, List.mem_append]; exact .inl hk)]
            exact hat k (fun e => hn2 (e ▸ hk))
    · -- again
      simp only [settle, if_neg hge, Spec.push, if_neg n1] at g1 g2 g5
      obtain ⟨⟨k2, e2⟩, rest, hl2⟩ : ∃ x rest, lp ++ [(e.key, (⟨e.key, e.retries + 1, e.data, cfg.keep e.md⟩ : PEntry K D M))] = x :: rest := by
        cases lp with
        | nil => exact ⟨_, _, rfl⟩
        | cons x r => exact ⟨x, _, rfl⟩
      have hmem2 : (k2, e2) ∈ lp ++ [(e.key, (⟨e.key, e.retries + 1, e.data, cfg.keep e.md⟩ : PEntry K D M))] := by rw [hl2]; simp
      rw [hl2] at g1 g2 g5
      have hk2 : e2.key = k2 := by
        simp only [List.mem_append, List.mem_singleton] at hmem2
        rcases hmem2 with hm | hm
        · exact hl.pKeys _ hm
        · cases hm; rfl
      have hall : ∀ x ∈ (k2, e2) :: rest, cfg.build x.2.data ≠ none ∧ x.2.retries < cap cfg := by
        intro x hx
        rw [← hl2] at hx
        simp only [List.mem_append, List.mem_singleton] at hx
        rcases hx with hm | rfl
        · exact ⟨hrl _ hm, b2 _ hm⟩
        · refine ⟨hr, ?_⟩
          show e.retries + 1 < cap cfg
          unfold cap; omega
      have hnle : ∀ k ∈ keys ((k2, e2) :: rest), k ∉ keys le := by
        intro k hk
        rw [← hl2] at hk
        simp only [keys, List.map_append, List.mem_append, List.map_cons, List.map_nil, List.mem_singleton] at hk
        rcases hk with hk | rfl
        · obtain ⟨a, ha, hlp, rfl, _, hfa⟩ := hfacts hc h hl hf
          exact hfa.notFailed (ha.core.log ▸ hf) (.inr (.inr (by rw [hlp]; exact hk)))
        · exact n2
      cases hb2 : cfg.build e2.data with
      | none => exact absurd hb2 (hall (k2, e2) (by simp)).1
      | some d2 =>
        simp only [turn, hb2, endEvent, List.mem_singleton] at g1 g2 g5
        obtain ⟨f1, f2⟩ := hfound' _ g2 (by simp)
        have hweight : weight (cap cfg) lp + (cap cfg - (e.retries + 1)) = (cap cfg - e2.retries) + weight (cap cfg) rest := by
          have := congrArg (weight (cap cfg)) hl2
          simpa [weight] using this
        obtain ⟨s', new, i1, i2, i3, i4, i5⟩ := ih h' f1 f2 g1.holds (g5 _ rfl) g3 (by rw [hid _ _ hb2]; simp)
          (fun x hx => (hall x (by simp [hx])).1) (by
            simp only
            omega)
        refine ⟨s', new, hrun'.trans i1, i2, ?_, i4, ?_⟩
        · simp only [hk2] at i3
          refine i3.trans ?_
          have : k2 :: keys rest = keys lp ++ [e.key] := by
            have := congrArg keys hl2
            simpa [keys] using this.symm
          rw [this]
          exact List.perm_append_singleton _ _
        · intro k hk
          rw [i5 k hk]
          show attempts k c.log = _
          rw [g2]
          simp only [List.cons_append, List.nil_append, attempts, hk2]
          rw [if_neg]
          rintro rfl
          exact hnle k2 (by simp [keys]) hk

example : ∃ s, HReach exCfg Any s ∧ Fresh s.core.log ∧ s.core.tasks[0]? = some (.inFlight ⟨8, 0, [18], 5⟩) ∧ s.core.paused = false ∧
    (∀ e, .found e ∈ s.core.log → e.retries < cap exCfg) ∧ s.core.pair.pending.size = 1 ∧
    ((hrun exCfg s (List.replicate 6 (.finish 0 .retry))).map fun s => (s.core.pair.pending.size, s.core.pair.error.size)) = some (0, 2) :=
  ⟨(hrun exCfg emptyH [.arrive 8 [18], .arrive 9 [19], .accept 0 5, .accept 0 6, .push 0, .push 0, .start 0]).get (by decide),
    hrun_reach emptyH_reach (Option.some_get _).symm, by decide, by decide, by decide, by
      intro e he
      have : (hrun exCfg emptyH [.arrive 8 [18], .arrive 9 [19], .accept 0 5, .accept 0 6, .push 0, .push 0, .start 0]).map
        (fun s => s.core.log) = some [.started ⟨8, 0, [18], 5⟩, .acked 9 [19] 6, .acked 8 [18] 5] := by decide
      rw [← Option.some_get (by decide : (hrun exCfg emptyH [.arrive 8 [18], .arrive 9 [19], .accept 0 5, .accept 0 6, .push 0, .push 0, .start 0]).isSome)] at this
      simp only [Option.map_some, Option.some.injEq] at this
      rw [this] at he
      simp at he, by decide, by decide⟩

/-! ### C17 -/

/-- **C17**, complete accounting: at every moment every message that was acknowledged or found at start-up
is waiting to be queued, pending, being handled, failed, handled, removed by an operator, or was lost when
an attempt ended with an exception. -/
theorem C17_accounted_partial {cfg : Cfg K D M R S} (hc : cfg.codecs.Lawful) {s} (h : HReach cfg Any s) {lp le}
    (hl : PairHolds cfg.codecs s.core.pair lp le) (k : K) (hk : k ∈ known s.core.log) :
    k ∈ s.jobs.map Prod.fst ∨ k ∈ keys lp ∨ (∃ e ∈ inFlight s.core.tasks, e.key = k) ∨ k ∈ keys le ∨
      .succeeded k ∈ s.core.log ∨ k ∈ removed s.core.log ∨ .lost k ∈ s.core.log := by
  obtain ⟨lp0, le0, a, h1, h2, h3, h4, h5, h6⟩ := hreach_amounts ⟨false, true, false⟩ hc (by simp) h
  obtain ⟨_, hp⟩ := micros_ind (places_micro (cfg := cfg) (b := ⟨false, true, false⟩)) h5 ⟨⟨h1, h2, h3, h4⟩, by
    intro k hk
    rw [known_ofLists h3 h4] at hk
    simp only [Abs.places, Abs.ofLists, List.map_nil, List.nil_append, List.mem_append] at hk ⊢
    tauto⟩
  have := hp k (h6.core.log ▸ hk)
  rw [holds_unique hl.p h6.core.inv.holds.p, holds_unique hl.e h6.core.inv.holds.e, h6.ext, h6.core.fl, h6.core.log, ← handled_mem,
    ← show k ∈ lostKeys a.log ↔ .lost k ∈ a.log from lost_mem]
  simp only [Abs.places, List.mem_append, List.mem_map (f := PEntry.key)] at this
  exact this

/-- **C17**, each in exactly one place, if every message has its own span key. -/
theorem C17_exactly_one_place_partial {cfg : Cfg K D M R S} (hc : cfg.codecs.Lawful) {s} (h : HReach cfg Any s) (hf : Fresh s.core.log)
    {lp le} (hl : PairHolds cfg.codecs s.core.pair lp le) :
    (known s.core.log).Perm (s.jobs.map Prod.fst ++ (keys lp ++ ((inFlight s.core.tasks).map PEntry.key ++ (keys le ++
      (handled s.core.log ++ (removed s.core.log ++ lostKeys s.core.log)))))) := by
  obtain ⟨a, ha, rfl, rfl, _, hfa⟩ := hfacts hc h hl hf
  rw [ha.core.log, ha.core.fl, ha.ext, List.perm_iff_count]
  exact hfa.tally

/-- **C17**, part that holds: as long as no attempt ends with an exception and everything found at start-up
can be read, nothing is lost. Missing: exceptions of hooks and handlers, cancellation (see
`C17_never_lost_refuted`). -/
theorem C17_never_lost_partial {cfg : Cfg K D M R S} (hc : cfg.codecs.Lawful)
    (hid : ∀ d d', cfg.build d = some d' → cfg.build d' = some d') {s} (h : HReach cfg NoRaise s)
    (hf1 : ∀ e, .found e ∈ s.core.log → cfg.build e.data ≠ none) (hf2 : ∀ e, .foundFailed e ∈ s.core.log → cfg.build e.data ≠ none)
    {lp le} (hl : PairHolds cfg.codecs s.core.pair lp le) (k : K) (hk : k ∈ known s.core.log) :
    k ∈ s.jobs.map Prod.fst ∨ k ∈ keys lp ∨ (∃ e ∈ inFlight s.core.tasks, e.key = k) ∨ k ∈ keys le ∨
      .succeeded k ∈ s.core.log ∨ k ∈ removed s.core.log := by
  obtain ⟨lp0, le0, a, h1, h2, h3, h4, h5, h6⟩ := hreach_amounts ⟨false, false, false⟩ hc
    (by intro s l hp t e; exact absurd e (hp t)) h
  have hr := micros_ind (readable_micro rfl rfl (fun d d' hd => by rw [hid d d' hd]; simp)) h5
    (readable_ofLists (fun e he => hf1 e (by rw [h6.core.log]; exact micros_mem h5 he))
      (fun e he => hf2 e (by rw [h6.core.log]; exact micros_mem h5 he)))
  have := C17_accounted_partial hc h.any hl k hk
  rw [← lost_mem, h6.core.log, hr.none] at this
  simp only [List.not_mem_nil, or_false] at this
  rw [h6.core.log]
  exact this

example : ∃ s, HReach exCfg NoRaise s ∧ known s.core.log = [1, 2, 3, 4, 5] ∧ s.core.tasks = [.inFlight ⟨1, 0, [11], 101⟩] ∧
    s.core.pair.pending.size = 1 ∧ s.core.pair.error.size = 3 :=
  ⟨(hrun exCfg exH [.start 0]).get (by decide), .step (.setup sample_reach) (l := .start 0) (by simp [NoRaise]) (by rfl),
    by decide, by decide, by decide, by decide⟩

/-- **C17 is false of the code**: request 8 is acknowledged, its handler raises, and it is neither pending
nor failed nor being handled, though it was not handled and nobody removed it. -/
theorem C17_never_lost_refuted :
    ∃ s, HReach exCfg Any s ∧ .acked 8 [18] 5 ∈ s.core.log ∧ s.core.tasks = [.done] ∧ s.jobs = [] ∧ s.collecting = [] ∧
      s.core.pair.pending.size = 0 ∧ s.core.pair.error.size = 0 ∧ handled s.core.log = [] ∧ removed s.core.log = [] :=
  ⟨(hrun exCfg emptyH [.arrive 8 [18], .accept 0 5, .push 0, .start 0, .finish 0 .raise]).get (by decide),
    hrun_reach emptyH_reach (Option.some_get _).symm, by decide, by decide, by decide, by decide, by decide, by decide, by decide, by decide⟩

/-! ### C18 -/

/-- **C18**, part that holds: if every accepted request is put into the queue while a worker is alive, and
no attempt has ended with an exception, then whenever processing is not paused and something is pending, a
worker is alive. Missing: the push running after the worker has ended (see `C18_awake_refuted`), and
attempts that ended with an exception. -/
theorem C18_awake_partial {cfg : Cfg K D M R S} (hc : cfg.codecs.Lawful) {s} (h : HReach cfg PushWhileAwake s)
    (hlost : lostKeys s.core.log = []) (hp : s.core.paused = false) {lp le} (hl : PairHolds cfg.codecs s.core.pair lp le) (hne : lp ≠ []) :
    ∃ t : Nat, s.core.tasks[t]? = some .scheduled ∨ ∃ e, s.core.tasks[t]? = some (.inFlight e) := by
  obtain ⟨hT, lp', le', hi⟩ := h.core hc
  apply alive_task hT
  cases hw : s.core.noWorker with
  | false => rfl
  | true =>
    rcases awake_h hc h hw with g | g | g
    · rw [hp] at g; cases g
    · have := (hasPending_iff hc (inv_of hi hl)).mpr hne
      rw [g] at this; cases this
    · exact absurd hlost g

example : ∃ s, HReach exCfg PushWhileAwake s ∧ lostKeys s.core.log = [] ∧ s.core.paused = false ∧ s.core.pair.pending.size = 1 ∧
    s.core.tasks = [.inFlight ⟨1, 0, [11], 101⟩] :=
  ⟨(hrun exCfg exH [.start 0]).get (by decide), .step (.setup sample_reach) (l := .start 0) (by simp [PushWhileAwake]) (by rfl),
    by decide, by decide, by decide, by decide⟩

/-- **C18**, part that holds: accepting a request, unpausing and reprocessing leave a living worker, so that
a sleeping endpoint wakes up at the next request. -/
theorem C18_woken_partial {cfg : Cfg K D M R S} (hc : cfg.codecs.Lawful) {s s'} (h : HReach cfg Any s) {l}
    (hl : (∃ i m, l = .accept i m) ∨ l = .unpauseProcessing ∨ l = .unpauseReceiving ∨ l = .reprocessAll ∨ ∃ k, l = .reprocessOne k)
    (hs : Handler.step cfg s l = some s') :
    ∃ t : Nat, s'.core.tasks[t]? = some .scheduled ∨ ∃ e, s'.core.tasks[t]? = some (.inFlight e) := by
  apply alive_task ((HReach.step h trivial hs).core hc).1
  obtain ⟨_, _, a, _, _, _, _, _, ha⟩ := hreach_amounts ⟨true, true, true⟩ hc (by simp) h
  rcases hl with ⟨i, m, rfl⟩ | rfl | rfl | rfl | ⟨k, rfl⟩
  · simp only [Handler.step] at hs
    split at hs
    · cases hs
    · rw [← Option.some.inj hs]; exact noWorker_check _
  · rw [← Option.some.inj hs]; exact noWorker_check _
  · rw [← Option.some.inj hs]; exact noWorker_check _
  · rw [← Option.some.inj hs]; exact (awake_reprocess hc ha.core).1
  · rw [← Option.some.inj hs]; exact ((awake_reprocess hc ha.core).2.2 k).1

/-- **C18**, the worker takes it: an unpaused worker that gets to run takes the oldest pending message. -/
theorem C18_worker_takes {cfg : Cfg K D M R S} (hc : cfg.codecs.Lawful) {s} (h : HReach cfg Any s) (hp : s.core.paused = false)
    {k e rest le} (hl : PairHolds cfg.codecs s.core.pair ((k, e) :: rest) le) {t : Nat} (ht : s.core.tasks[t]? = some .scheduled)
    {d} (hb : cfg.build e.data = some d) :
    ∃ s', Handler.step cfg s (.start t) = some s' ∧ s'.core.tasks[t]? = some (.inFlight { e with data := d }) ∧
      .started { e with data := d } ∈ s'.core.log ∧ PairHolds cfg.codecs s'.core.pair rest le := by
  obtain ⟨hT, lp0, le0, hi0⟩ := h.core hc
  have hi := inv_of hi0 hl
  obtain ⟨c, hcs⟩ : ∃ c, s.core.start cfg t = some c := by unfold St.start; rw [ht]; exact ⟨_, rfl⟩
  obtain ⟨g1, g2, _, _, g5⟩ := start_turn hc hT hi hcs
  rw [hp] at g1 g2 g5
  simp only [turn, hb] at g1 g2 g5
  exact ⟨{ s with core := c }, by simp [Handler.step, hcs], g5 _ (by simp), by simp [g2], g1.holds⟩

/-- **C18 is false of the code**: while request 7 is handled, request 8 is acknowledged; its check finds the
worker alive; the worker finishes 7, finds the queue empty and ends; then the push of 8 runs. Request 8
stays pending with no worker, until something else wakes the endpoint. -/
theorem C18_awake_refuted :
    ∃ s, HReach exCfg Any s ∧ lostKeys s.core.log = [] ∧ s.core.paused = false ∧ s.core.pair.pending.size = 1 ∧
      s.jobs = [] ∧ s.core.tasks = [.done] :=
  ⟨(hrun exCfg emptyH [.arrive 7 [17], .accept 0 5, .push 0, .start 0, .arrive 8 [18], .accept 0 6, .finish 0 .ok, .push 0]).get (by decide),
    hrun_reach emptyH_reach (Option.some_get _).symm, by decide, by decide, by decide, by decide, by decide⟩

/-! ### C19 -/

/-- **C19**, part that holds: as long as no attempt was ended by an exception (cancellation, or a stored
payload that does not validate), whenever sending is not paused and a message is pending, a worker is
scheduled or running. -/
theorem C19_awake_partial {cfg : Cfg K D M R S} (hc : cfg.codecs.Lawful) {s} (h : SReach cfg Any s)
    (hlost : lostKeys s.log = []) (hp : s.paused = false) {lp le} (hl : PairHolds cfg.codecs s.pair lp le) (hne : lp ≠ []) :
    ∃ t : Nat, s.tasks[t]? = some .scheduled ∨ ∃ e, s.tasks[t]? = some (.inFlight e) := by
  obtain ⟨hT, lp', le', hi⟩ := h.core hc
  apply alive_task hT
  cases hw : s.noWorker with
  | false => rfl
  | true =>
    rcases awake_s hc h hw with g | g | g
    · rw [hp] at g; cases g
    · have := (hasPending_iff hc (inv_of hi hl)).mpr hne
      rw [g] at this; cases this
    · exact absurd hlost g

example : ∃ s, SReach exCfg Any s ∧ lostKeys s.log = [] ∧ s.paused = false ∧ s.pair.pending.size = 1 ∧
    s.tasks = [.inFlight ⟨8, 0, [18], 0⟩] :=
  ⟨(srun exCfg emptyS [.enqueue 8 [18], .start 0, .enqueue 9 [19]]).get (by decide),
    srun_reach emptyS_reach (Option.some_get _).symm, by decide, by decide, by decide, by decide⟩

/-- **C19 is false of the code**: message 8 does not validate when it is read back; that ends the worker,
and message 9 stays pending with no worker. -/
theorem C19_awake_refuted :
    ∃ s, SReach exCfg Any s ∧ s.paused = false ∧ s.pair.pending.size = 1 ∧ s.tasks = [.done] :=
  ⟨(srun exCfg emptyS [.enqueue 8 [0], .enqueue 9 [19], .start 0]).get (by decide),
    srun_reach emptyS_reach (Option.some_get _).symm, by decide, by decide, by decide⟩

/-- **C19**, the worker takes it. -/
theorem C19_worker_takes {cfg : Cfg K D M R S} (hc : cfg.codecs.Lawful) {s} (h : SReach cfg Any s) (hp : s.paused = false)
    {k e rest le} (hl : PairHolds cfg.codecs s.pair ((k, e) :: rest) le) {t : Nat} (ht : s.tasks[t]? = some .scheduled)
    {d} (hb : cfg.build e.data = some d) :
    ∃ s', Sender.step cfg s (.start t) = some s' ∧ s'.tasks[t]? = some (.inFlight { e with data := d }) ∧
      .started { e with data := d } ∈ s'.log ∧ PairHolds cfg.codecs s'.pair rest le := by
  obtain ⟨hT, lp0, le0, hi0⟩ := h.core hc
  have hi := inv_of hi0 hl
  obtain ⟨c, hcs⟩ : ∃ c, s.start cfg t = some c := by unfold St.start; rw [ht]; exact ⟨_, rfl⟩
  obtain ⟨g1, g2, _, _, g5⟩ := start_turn hc hT hi hcs
  rw [hp] at g1 g2 g5
  simp only [turn, hb] at g1 g2 g5
  exact ⟨c, hcs, g5 _ (by simp), by simp [g2], g1.holds⟩

/-! ### C20 -/

/-- **C20**, the commands of an endpoint do what they say and touch nothing else that can be seen. -/
theorem C20_commands_endpoint {cfg : Cfg K D M R S} (s : Handler.HSt K D M R S) :
    (∃ s', Handler.step cfg s .pauseProcessing = some s' ∧ s'.core.paused = true ∧ s'.recvPaused = s.recvPaused ∧
      s'.core.pair = s.core.pair ∧ s'.core.log = s.core.log) ∧
    (∃ s', Handler.step cfg s .unpauseProcessing = some s' ∧ s'.core.paused = false ∧ s'.recvPaused = s.recvPaused ∧
      s'.core.pair = s.core.pair ∧ s'.core.log = s.core.log) ∧
    (∃ s', Handler.step cfg s .pauseReceiving = some s' ∧ s'.core.paused = s.core.paused ∧ s'.recvPaused = true ∧
      s'.core.pair = s.core.pair ∧ s'.core.log = s.core.log) ∧
    (∃ s', Handler.step cfg s .unpauseReceiving = some s' ∧ s'.core.paused = s.core.paused ∧ s'.recvPaused = false ∧
      s'.core.pair = s.core.pair ∧ s'.core.log = s.core.log) := by
  obtain ⟨a1, a2, a3, _⟩ := check_fields { s.core with paused := false }
  obtain ⟨b1, b2, b3, _⟩ := check_fields s.core
  exact ⟨⟨_, rfl, rfl, rfl, rfl, rfl⟩, ⟨_, rfl, a3, rfl, a1, a2⟩, ⟨_, rfl, rfl, rfl, rfl, rfl⟩, ⟨_, rfl, b3, rfl, b1, b2⟩⟩

/-- **C20**, the commands of a sender. -/
theorem C20_commands_sender {cfg : Cfg K D M R S} (s : St K D M R S) :
    (∃ s', Sender.step cfg s .pause = some s' ∧ s'.paused = true ∧ s'.pair = s.pair ∧ s'.log = s.log) ∧
    (∃ s', Sender.step cfg s .unpause = some s' ∧ s'.paused = false ∧ s'.pair = s.pair ∧ s'.log = s.log) := by
  obtain ⟨a1, a2, a3, _⟩ := check_fields { s with paused := false }
  exact ⟨⟨_, rfl, rfl, rfl, rfl⟩, ⟨_, rfl, a3, a1, a2⟩⟩

/-- **C20**, part that holds, endpoint: from a paused state, no sequence of events without an unpause or
reprocess command starts anything, and processing stays paused. -/
theorem C20_paused_endpoint_partial {cfg : Cfg K D M R S} (hc : cfg.codecs.Lawful) {s s'} (h : HReach cfg Any s)
    (hp : s.core.paused = true) (ls : List (Handler.Label K D M R)) (hls : ∀ l ∈ ls, ¬ HUnpauses l) (hs : hrun cfg s ls = some s') :
    s'.core.paused = true ∧ starts s'.core.log = starts s.core.log := by
  induction ls generalizing s with
  | nil => rw [← Option.some.inj hs]; exact ⟨hp, rfl⟩
  | cons l ls ih =>
    simp only [hrun] at hs
    cases hl : Handler.step cfg s l with
    | none => rw [hl] at hs; cases hs
    | some s1 =>
      rw [hl] at hs
      have : s1.core.paused = true ∧ starts s1.core.log = starts s.core.log := by
        obtain ⟨hT, lp, le, hi⟩ := h.core hc
        by_cases hw : HWork l
        · cases l with
          | start t =>
            simp only [Handler.step, Option.map_eq_some_iff] at hl
            obtain ⟨c, hcs, rfl⟩ := hl
            exact paused_start hc hT hi hp hcs
          | finish t o =>
            obtain ⟨c, hcs, rfl, _⟩ := h_finish hl
            exact paused_finish hc hT hi hp hcs
          | _ => exact hw.elim
        · obtain ⟨g1, g2⟩ := h_quiet hl hw
          exact ⟨g2 (hls l (by simp)) hp, g1⟩
      obtain ⟨i1, i2⟩ := ih (.step h trivial hl) this.1 (fun l hl => hls l (by simp [hl])) hs
      exact ⟨i1, i2.trans this.2⟩

example : ∃ s s', HReach exCfg Any s ∧ s.core.paused = true ∧ starts s.core.log = [] ∧ s.core.pair.pending.size = 2 ∧
    hrun exCfg s [.start 0, .arrive 8 [18], .accept 0 5, .push 0, .start 1, .popError 3] = some s' ∧ s'.core.pair.pending.size = 3 :=
  ⟨(hrun exCfg exH [.pauseProcessing]).get (by decide),
    (hrun exCfg exH [.pauseProcessing, .start 0, .arrive 8 [18], .accept 0 5, .push 0, .start 1, .popError 3]).get (by decide),
    hrun_reach exH_reach (Option.some_get _).symm, by decide, by decide, by decide, by decide, by decide⟩

/-- **C20**, requests keep being accepted, paused or not: with receiving not paused, a valid request whose
hooks succeed is acknowledged, and its push puts it into the pending queue. -/
theorem C20_still_accepted {cfg : Cfg K D M R S} (hc : cfg.codecs.Lawful) {s} (h : HReach cfg Any s) (hr : s.recvPaused = false)
    {lp le} (hl : PairHolds cfg.codecs s.core.pair lp le) (k : K) (raw d : D) (hb : cfg.build raw = some d) (m : M) (hk : k ∉ keys lp) :
    ∃ s', hrun cfg s [.arrive k raw, .accept s.collecting.length m, .push s.jobs.length] = some s' ∧ .acked k d m ∈ s'.core.log ∧
      PairHolds cfg.codecs s'.core.pair (lp ++ [(k, ⟨k, 0, d, m⟩)]) le ∧ s'.jobs = s.jobs ∧ s'.collecting = s.collecting ∧
      s'.core.paused = s.core.paused := by
  obtain ⟨hT, lp0, le0, hi0⟩ := h.core hc
  have hi := inv_of hi0 hl
  obtain ⟨c1, c2, c3, _⟩ := check_fields (s.core.emit (.acked k d m))
  simp only [hrun, Handler.step, hb, hr, Bool.false_eq_true, if_false, List.getElem?_append_right (Nat.le_refl _), Nat.sub_self,
    List.getElem?_cons_zero, Option.some.injEq, exists_eq_left']
  refine ⟨by rw [c2]; simp [St.emit], ?_, by simp [List.eraseIdx_append_of_length_le], by simp [List.eraseIdx_append_of_length_le], c3⟩
  rw [c1]
  have := (inv_pushPending hc hi k d 0 m).2.holds
  simp only [Spec.push, if_neg hk] at this
  exact this

/-- **C20**, part that holds, sender. -/
theorem C20_paused_sender_partial {cfg : Cfg K D M R S} (hc : cfg.codecs.Lawful) {s s'} (h : SReach cfg Any s)
    (hp : s.paused = true) (ls : List (Sender.Label K D R)) (hls : ∀ l ∈ ls, ¬ SUnpauses l) (hs : srun cfg s ls = some s') :
    s'.paused = true ∧ starts s'.log = starts s.log := by
  induction ls generalizing s with
  | nil => rw [← Option.some.inj hs]; exact ⟨hp, rfl⟩
  | cons l ls ih =>
    simp only [srun] at hs
    cases hl : Sender.step cfg s l with
    | none => rw [hl] at hs; cases hs
    | some s1 =>
      rw [hl] at hs
      have : s1.paused = true ∧ starts s1.log = starts s.log := by
        obtain ⟨hT, lp, le, hi⟩ := h.core hc
        by_cases hw : SWork l
        · cases l with
          | start t => exact paused_start hc hT hi hp hl
          | finish t o => exact paused_finish hc hT hi hp hl
          | _ => exact hw.elim
        · obtain ⟨g1, g2⟩ := s_quiet hl hw
          exact ⟨g2 (hls l (by simp)) hp, g1⟩
      obtain ⟨i1, i2⟩ := ih (.step h trivial hl) this.1 (fun l hl => hls l (by simp [hl])) hs
      exact ⟨i1, i2.trans this.2⟩

/-- **C20 is false of the code**: processing is paused and stays so as far as the operator knows; looking
for span key 99 in the error queue, which is not there, unpauses it and message 1 is handled. -/
theorem C20_paused_refuted :
    ∃ s s', HReach exCfg Any s ∧ s.core.paused = true ∧ starts s.core.log = [] ∧
      hrun exCfg s [.reprocessOne 99, .start 0] = some s' ∧ starts s'.core.log = [⟨1, 0, [11], 101⟩] :=
  ⟨(hrun exCfg exH [.pauseProcessing]).get (by decide), (hrun exCfg exH [.pauseProcessing, .reprocessOne 99, .start 0]).get (by decide),
    hrun_reach exH_reach (Option.some_get _).symm, by decide, by decide, by decide, by decide⟩

/-! ### C22 -/

/-- **C22**, one at a time, endpoint. -/
theorem C22_one_at_a_time_endpoint {cfg : Cfg K D M R S} (hc : cfg.codecs.Lawful) {s} (h : HReach cfg Any s) :
    (inFlight s.core.tasks).length ≤ 1 := inFlight_le_one (h.core hc).1

/-- **C22**, one at a time, sender. -/
theorem C22_one_at_a_time_sender {cfg : Cfg K D M R S} (hc : cfg.codecs.Lawful) {s} (h : SReach cfg Any s) :
    (inFlight s.tasks).length ≤ 1 := inFlight_le_one (h.core hc).1

/-- **C22**, queue order, endpoint: an event starts nothing, or starts the oldest pending message only. -/
theorem C22_order_endpoint {cfg : Cfg K D M R S} (hc : cfg.codecs.Lawful) {s s'} (h : HReach cfg Any s) {lp le}
    (hl : PairHolds cfg.codecs s.core.pair lp le) {l} (hs : Handler.step cfg s l = some s') :
    starts s'.core.log = starts s.core.log ∨
    ∃ lp1 le', NextQueue cfg s.core.tasks lp lp1 ∧ StartedOldest cfg s.core.log s'.core.log s'.core.pair lp1 le' := by
  obtain ⟨hT, lp0, le0, hi0⟩ := h.core hc
  have hi := inv_of hi0 hl
  by_cases hw : HWork l
  · cases l with
    | start t =>
      simp only [Handler.step, Option.map_eq_some_iff] at hs
      obtain ⟨c, hcs, rfl⟩ := hs
      exact order_start hc hT hi hcs
    | finish t o =>
      obtain ⟨c, hcs, rfl, _⟩ := h_finish hs
      exact order_finish hc hT hi hcs
    | _ => exact hw.elim
  · exact .inl (h_quiet hs hw).1

/-- **C22**, queue order, sender. -/
theorem C22_order_sender {cfg : Cfg K D M R S} (hc : cfg.codecs.Lawful) {s s'} (h : SReach cfg Any s) {lp le}
    (hl : PairHolds cfg.codecs s.pair lp le) {l} (hs : Sender.step cfg s l = some s') :
    starts s'.log = starts s.log ∨
    ∃ lp1 le', NextQueue cfg s.tasks lp lp1 ∧ StartedOldest cfg s.log s'.log s'.pair lp1 le' := by
  obtain ⟨hT, lp0, le0, hi0⟩ := h.core hc
  have hi := inv_of hi0 hl
  by_cases hw : SWork l
  · cases l with
    | start t => exact order_start hc hT hi hs
    | finish t o => exact order_finish hc hT hi hs
    | _ => exact hw.elim
  · exact .inl (s_quiet hs hw).1

example : ∃ s, HReach exCfg Any s ∧ (starts s.core.log).map PEntry.key = [9, 8, 2, 1] ∧ s.core.tasks = [.inFlight ⟨9, 0, [19], 6⟩] :=
  ⟨(hrun exCfg exH [.arrive 8 [18], .arrive 9 [19], .accept 0 5, .accept 0 6, .push 0, .push 0, .start 0,
      .finish 0 .ok, .finish 0 .ok, .finish 0 .ok]).get (by decide),
    hrun_reach exH_reach (Option.some_get _).symm, by decide, by decide⟩

/-! ### C23 -/

/-- **C23**: when metadata is kept (it is, for endpoints) and reading back a stored payload gives the same
payload, then every message handed to hooks and handler, on every attempt, carries the payload and the
metadata it was accepted with. -/
theorem C23_carried {cfg : Cfg K D M R S} (hc : cfg.codecs.Lawful) (hkeep : ∀ m, cfg.keep m = m)
    (hid : ∀ d d', cfg.build d = some d' → cfg.build d' = some d') {s} (h : HReach cfg Any s) :
    ∀ e, .started e ∈ s.core.log → CameIn cfg.build s.core.log e.key e.data e.md := by
  obtain ⟨lp0, le0, a, h1, h2, h3, h4, h5, h6⟩ := hreach_amounts ⟨false, true, false⟩ hc (by simp) h
  obtain ⟨_, hca⟩ := micros_ind (carried_micro rfl hkeep hid) h5 ⟨⟨h1, h2, h3, h4⟩, carried_ofLists h3 h4⟩
  rw [h6.core.log]; exact hca.started

/-- **C23**, with one request per span key the payload and metadata of an accepted request are the only
ones its handler ever sees. -/
theorem C23_exact {cfg : Cfg K D M R S} (hc : cfg.codecs.Lawful) (hkeep : ∀ m, cfg.keep m = m)
    (hid : ∀ d d', cfg.build d = some d' → cfg.build d' = some d') {s} (h : HReach cfg Any s) (hf : Fresh s.core.log)
    {k d m} (ha : .acked k d m ∈ s.core.log) {e} (he : .started e ∈ s.core.log) (hk : e.key = k) : e.data = d ∧ e.md = m := by
  have := C23_carried hc hkeep hid h e he
  rw [hk] at this
  exact cameIn_unique hf ha this

/-- **C23**, in the queues: what is pending or failed carries the metadata it came in with, and its payload
reads as the payload it came in with. -/
theorem C23_stored {cfg : Cfg K D M R S} (hc : cfg.codecs.Lawful) (hkeep : ∀ m, cfg.keep m = m)
    (hid : ∀ d d', cfg.build d = some d' → cfg.build d' = some d') {s} (h : HReach cfg Any s) {lp le}
    (hl : PairHolds cfg.codecs s.core.pair lp le) :
    (∀ x ∈ lp, ∀ d, cfg.build x.2.data = some d → CameIn cfg.build s.core.log x.1 d x.2.md) ∧
    (∀ x ∈ le, ∀ d, cfg.build x.2.data = some d → CameIn cfg.build s.core.log x.1 d x.2.md) := by
  obtain ⟨lp0, le0, a, h1, h2, h3, h4, h5, h6⟩ := hreach_amounts ⟨false, true, false⟩ hc (by simp) h
  obtain ⟨_, hca⟩ := micros_ind (carried_micro rfl hkeep hid) h5 ⟨⟨h1, h2, h3, h4⟩, carried_ofLists h3 h4⟩
  rw [h6.core.log, holds_unique hl.p h6.core.inv.holds.p, holds_unique hl.e h6.core.inv.holds.e]
  exact ⟨hca.lp, hca.le⟩

example : ∃ s, HReach exCfg Any s ∧ Fresh s.core.log ∧ .acked 8 [18] 5 ∈ s.core.log ∧
    starts s.core.log = [⟨8, 0, [18], 5⟩, ⟨8, 2, [18], 5⟩, ⟨8, 1, [18], 5⟩, ⟨8, 0, [18], 5⟩] :=
  ⟨(hrun exCfg emptyH [.arrive 8 [18], .accept 0 5, .push 0, .start 0, .finish 0 .retry, .finish 0 .retry, .finish 0 .retry,
      .reprocessAll, .start 1]).get (by decide),
    hrun_reach emptyH_reach (Option.some_get _).symm, by decide, by decide, by decide⟩

/-! ### C24 -/

theorem fresh_flying_s {cfg : Cfg K D M R S} (hc : cfg.codecs.Lawful) {s} (h : SReach cfg Any s) (hf : Fresh s.log)
    {lp le} (hl : PairHolds cfg.codecs s.pair lp le) {t : Nat} {e} (ht : s.tasks[t]? = some (.inFlight e)) :
    e.key ∉ keys lp ∧ e.key ∉ keys le ∧ e.retries + 1 = attempts e.key s.log := by
  obtain ⟨a, ha, _, rfl, rfl, _, hfa⟩ := sfacts hc h hl hf
  have hfl : a.fl = [e] := by
    rw [← ha.fl]; exact inFlight_get (ha.tasks.onlyTask ht (by simp)) ht
  have hf' := ha.log ▸ hf
  refine ⟨hfa.notPending hf' (.inr (.inl (by rw [hfl]; simp))), hfa.notFailed hf' (.inr (.inl (by rw [hfl]; simp))), ?_⟩
  rw [ha.log]; exact hfa.fly e (by rw [hfl]; simp)

/-- **C24**: what the end of an attempt to send `e` leads to. `n` is the number of attempts made.
Success removes it; busy or exhausted communication queues it again at the end while `n < max_retries` and
otherwise puts it into the error queue with "Max retries reached."; any other failure puts it into the error
queue at once with that failure's text. Then the worker looks at the pending queue. -/
theorem C24_classification {cfg : Cfg K D M R S} (hc : cfg.codecs.Lawful) {s s'} (h : SReach cfg Any s) (hf : Fresh s.log)
    {lp le} (hl : PairHolds cfg.codecs s.pair lp le) {t : Nat} {e} (ht : s.tasks[t]? = some (.inFlight e)) {o}
    (hs : Sender.step cfg s (.finish t o) = some s') {n : Nat} (hn : n = attempts e.key s.log) :
    (o = .ok → PairHolds cfg.codecs s'.pair (turn (R := R) cfg.build s.paused lp).1 le ∧ .succeeded e.key ∈ s'.log) ∧
    (o = .retry → (n : Int) < cfg.maxRetries → PairHolds cfg.codecs s'.pair
      (turn (R := R) cfg.build s.paused (lp ++ [(e.key, ⟨e.key, n, e.data, cfg.keep e.md⟩)])).1 le) ∧
    (o = .retry → cfg.maxRetries ≤ (n : Int) → PairHolds cfg.codecs s'.pair
      (turn (R := R) cfg.build s.paused lp).1 (le ++ [(e.key, ⟨e.key, e.data, cfg.reason, cfg.keep e.md⟩)])) ∧
    (∀ text, o = .fatal text → PairHolds cfg.codecs s'.pair
      (turn (R := R) cfg.build s.paused lp).1 (le ++ [(e.key, ⟨e.key, e.data, text, cfg.keep e.md⟩)])) := by
  obtain ⟨hT, lp0, le0, hi0⟩ := h.core hc
  have hi := inv_of hi0 hl
  obtain ⟨n1, n2, n3⟩ := fresh_flying_s hc h hf hl ht
  replace hs : s.finish cfg t o = some s' := hs
  subst hn
  rw [← n3]
  refine ⟨?_, ?_, ?_, ?_⟩
  · rintro rfl
    obtain ⟨g, g2, _⟩ := finish_turn hc hT hi ht (by simp) hs
    exact ⟨g.holds, by rw [g2]; simp [endEvent]⟩
  · rintro rfl hlt
    obtain ⟨g, _⟩ := finish_turn hc hT hi ht (by simp) hs
    simp only [settle, if_neg (not_le.mpr hlt), Spec.push, if_neg n1] at g
    exact g.holds
  · rintro rfl hge
    obtain ⟨g, _⟩ := finish_turn hc hT hi ht (by simp) hs
    simp only [settle, ge_iff_le, if_pos hge, Spec.push, if_neg n2] at g
    exact g.holds
  · rintro text rfl
    obtain ⟨g, _⟩ := finish_turn hc hT hi ht (by simp) hs
    simp only [settle, Spec.push, if_neg n2] at g
    exact g.holds

/-- **C24**, at most `max(1, max_retries)` attempts in all. -/
theorem C24_attempts_bounded {cfg : Cfg K D M R S} (hc : cfg.codecs.Lawful) {s} (h : SReach cfg Any s) (hf : Fresh s.log)
    (hfound : ∀ e, .found e ∈ s.log → e.retries < cap cfg) (k : K) : attempts k s.log ≤ cap cfg := by
  obtain ⟨lp, le, hl, _⟩ := C24_content hc h
  obtain ⟨a, ha, _, _, _, _, hfa⟩ := sfacts hc h hl hf
  rw [ha.log] at hfound ⊢
  exact (hfa.bound hfound).2.2.1 k

/-- **C24**, success removes it for good. -/
theorem C24_success_is_final {cfg : Cfg K D M R S} (hc : cfg.codecs.Lawful) {s} (h : SReach cfg Any s) (hf : Fresh s.log)
    {lp le} (hl : PairHolds cfg.codecs s.pair lp le) :
    Settled s.log ∧ ∀ k, .succeeded k ∈ s.log → k ∉ keys lp ∧ k ∉ keys le ∧ ∀ e ∈ inFlight s.tasks, e.key ≠ k := by
  obtain ⟨a, ha, _, rfl, rfl, _, hfa⟩ := sfacts hc h hl hf
  rw [ha.log, ha.fl]
  refine ⟨hfa.settled, fun k hk => ?_⟩
  have h1 := hfa.one (ha.log ▸ hf) k _ rfl
  have h2 := count_pos.mpr (handled_mem.mpr hk)
  refine ⟨?_, ?_, ?_⟩
  · rw [← count_eq_zero]; omega
  · rw [← count_eq_zero]; omega
  · intro e he hek
    have : 0 < (a.fl.map PEntry.key).count k := count_pos.mpr (List.mem_map.mpr ⟨e, he, hek⟩)
    omega

example : ∃ s s', SReach exCfg Any s ∧ Fresh s.log ∧ s.tasks[0]? = some (.inFlight ⟨8, 0, [18], 0⟩) ∧ attempts 8 s.log = 1 ∧
    Sender.step exCfg s (.finish 0 (.fatal 55)) = some s' ∧ s'.pair.error.size = 1 ∧ s'.tasks[0]? = some (.inFlight ⟨9, 0, [19], 0⟩) :=
  ⟨(srun exCfg emptyS [.enqueue 8 [18], .start 0, .enqueue 9 [19]]).get (by decide),
    (srun exCfg emptyS [.enqueue 8 [18], .start 0, .enqueue 9 [19], .finish 0 (.fatal 55)]).get (by decide),
    srun_reach emptyS_reach (Option.some_get _).symm, by decide, by decide, by decide, by decide, by decide, by decide⟩

/-! ### C25 -/

/-- **C25**, complete accounting. -/
theorem C25_accounted_partial {cfg : Cfg K D M R S} (hc : cfg.codecs.Lawful) {s} (h : SReach cfg Any s) {lp le}
    (hl : PairHolds cfg.codecs s.pair lp le) (k : K) (hk : k ∈ known s.log) :
    k ∈ keys lp ∨ (∃ e ∈ inFlight s.tasks, e.key = k) ∨ k ∈ keys le ∨ .succeeded k ∈ s.log ∨ k ∈ removed s.log ∨ .lost k ∈ s.log := by
  obtain ⟨lp0, le0, a, h1, h2, h3, h4, h5, h6, h7⟩ := sreach_amounts ⟨true, true, true⟩ hc (by simp) h
  obtain ⟨_, hp⟩ := micros_ind (places_micro (cfg := cfg) (b := ⟨true, true, true⟩)) h5 ⟨⟨h1, h2, h3, h4⟩, by
    intro k hk
    rw [known_ofLists h3 h4] at hk
    simp only [Abs.places, Abs.ofLists, List.map_nil, List.nil_append, List.mem_append] at hk ⊢
    tauto⟩
  have := hp k (h6.log ▸ hk)
  rw [holds_unique hl.p h6.inv.holds.p, holds_unique hl.e h6.inv.holds.e, h6.fl, h6.log, ← handled_mem,
    ← show k ∈ lostKeys a.log ↔ .lost k ∈ a.log from lost_mem]
  simp only [Abs.places, h7, List.map_nil, List.nil_append, List.mem_append, List.mem_map (f := PEntry.key)] at this
  exact this

/-- **C25**, part that holds: without cancellation, and when payloads and everything found at start-up can
be read back, nothing is lost. -/
theorem C25_never_lost_partial {cfg : Cfg K D M R S} (hc : cfg.codecs.Lawful)
    (hid : ∀ d d', cfg.build d = some d' → cfg.build d' = some d') {s} (h : SReach cfg (NoCancel cfg) s)
    (hf1 : ∀ e, .found e ∈ s.log → cfg.build e.data ≠ none) (hf2 : ∀ e, .foundFailed e ∈ s.log → cfg.build e.data ≠ none)
    {lp le} (hl : PairHolds cfg.codecs s.pair lp le) (k : K) (hk : k ∈ known s.log) :
    k ∈ keys lp ∨ (∃ e ∈ inFlight s.tasks, e.key = k) ∨ k ∈ keys le ∨ .succeeded k ∈ s.log ∨ k ∈ removed s.log := by
  obtain ⟨lp0, le0, a, h1, h2, h3, h4, h5, h6, h7⟩ := sreach_amounts ⟨true, false, false⟩ hc
    (by intro s l hp; exact ⟨by simp, fun t e => absurd e (hp.1 t), fun k d e => .inl (hp.2 k d e)⟩) h
  have hr := micros_ind (readable_micro rfl rfl (fun d d' hd => by rw [hid d d' hd]; simp)) h5
    (readable_ofLists (fun e he => hf1 e (by rw [h6.log]; exact micros_mem h5 he))
      (fun e he => hf2 e (by rw [h6.log]; exact micros_mem h5 he)))
  have := C25_accounted_partial hc h.any hl k hk
  rw [← lost_mem, h6.log, hr.none] at this
  simp only [List.not_mem_nil, or_false] at this
  rw [h6.log]
  exact this

example : ∃ s, SReach exCfg (NoCancel exCfg) s ∧ known s.log = [9, 8] ∧ s.tasks = [.inFlight ⟨9, 0, [19], 0⟩] ∧ s.pair.error.size = 1 := by
  refine ⟨(srun exCfg emptyS [.enqueue 8 [18], .start 0, .enqueue 9 [19], .finish 0 (.fatal 55)]).get (by decide), ?_, by decide, by decide, by decide⟩
  refine .step (l := .finish 0 (.fatal 55)) (.step (l := .enqueue 9 [19]) (.step (l := .start 0) (.step (l := .enqueue 8 [18])
    (.setup (.new (by decide : 0 < 2))) ⟨by simp, ?_⟩ rfl) ⟨by simp, by simp⟩ rfl) ⟨by simp, ?_⟩ rfl) ⟨by simp, by simp⟩ rfl
  · intro k d hd; cases hd; exact ⟨[18], by decide⟩
  · intro k d hd; cases hd; exact ⟨[19], by decide⟩

/-- **C25 is false of the code**: message 8 is taken, then its stored form does not validate (or the worker
is cancelled while sending 9); both are gone, though neither was sent. -/
theorem C25_never_lost_refuted :
    (∃ s, SReach exCfg Any s ∧ .acked 8 [0] 0 ∈ s.log ∧ s.pair.pending.size = 0 ∧ s.pair.error.size = 0 ∧ s.tasks = [.done] ∧
      handled s.log = [] ∧ removed s.log = []) ∧
    (∃ s, SReach exCfg Any s ∧ .acked 9 [19] 0 ∈ s.log ∧ s.pair.pending.size = 0 ∧ s.pair.error.size = 0 ∧ s.tasks = [.done] ∧
      handled s.log = [] ∧ removed s.log = []) :=
  ⟨⟨(srun exCfg emptyS [.enqueue 8 [0], .start 0]).get (by decide),
    srun_reach emptyS_reach (Option.some_get _).symm, by decide, by decide, by decide, by decide, by decide, by decide⟩,
   ⟨(srun exCfg emptyS [.enqueue 9 [19], .start 0, .finish 0 .raise]).get (by decide),
    srun_reach emptyS_reach (Option.some_get _).symm, by decide, by decide, by decide, by decide, by decide, by decide⟩⟩

/-! ### C26 -/

/-- **C26**, part that holds, endpoint: after a terminating signal the next start finds every pending and
every failed message, unchanged. Missing: the message being handled, and accepted requests whose push has not
run (see `C26_stop_refuted`). -/
theorem C26_stop_endpoint_partial {cfg : Cfg K D M R S} (hc : cfg.codecs.Lawful) {s} (h : HReach cfg Any s) {lp le}
    (hl : PairHolds cfg.codecs s.core.pair lp le) {p : Nat} (hp : 0 < p) :
    ∃ lp' le', PairHolds cfg.codecs (Pair.open p (Handler.terminate s).core.pair.pending.db (Handler.terminate s).core.pair.error.db) lp' le' ∧
      lp'.Perm lp ∧ le'.Perm le := by
  obtain ⟨hT, lp0, le0, hi0⟩ := h.core hc
  have hi := inv_of hi0 hl
  have : (Handler.terminate s).core.pair = s.core.pair.shutDown.2 := (terminate_core hT).1
  rw [this, pair_shutDown hc hi]
  exact reopened hc hi hp

/-- **C26**, part that holds, sender. -/
theorem C26_stop_sender_partial {cfg : Cfg K D M R S} (hc : cfg.codecs.Lawful) {s} (h : SReach cfg Any s) {lp le}
    (hl : PairHolds cfg.codecs s.pair lp le) {p : Nat} (hp : 0 < p) :
    ∃ lp' le', PairHolds cfg.codecs (Pair.open p (Sender.terminate s).pair.pending.db (Sender.terminate s).pair.error.db) lp' le' ∧
      lp'.Perm lp ∧ le'.Perm le := by
  obtain ⟨hT, lp0, le0, hi0⟩ := h.core hc
  have hi := inv_of hi0 hl
  have : (Sender.terminate s).pair = s.pair.shutDown.2 := (terminate_core hT).1
  rw [this, pair_shutDown hc hi]
  exact reopened hc hi hp

/-- **C26**, part that holds: if nothing is being handled and every push has run when the signal arrives,
every message that was neither finished, removed nor lost before is found at the next start. -/
theorem C26_idle_stop_partial {cfg : Cfg K D M R S} (hc : cfg.codecs.Lawful) {s} (h : HReach cfg Any s)
    (hidle : inFlight s.core.tasks = []) (hj : s.jobs = []) {p : Nat} (hp : 0 < p) :
    ∃ lp' le', PairHolds cfg.codecs (Pair.open p (Handler.terminate s).core.pair.pending.db (Handler.terminate s).core.pair.error.db) lp' le' ∧
      ∀ k ∈ known s.core.log, k ∈ keys lp' ∨ k ∈ keys le' ∨ .succeeded k ∈ s.core.log ∨ k ∈ removed s.core.log ∨ .lost k ∈ s.core.log := by
  obtain ⟨lp, le, hl, _⟩ := C16_content hc h
  obtain ⟨lp', le', h1, h2, h3⟩ := C26_stop_endpoint_partial hc h hl hp
  refine ⟨lp', le', h1, fun k hk => ?_⟩
  have := C17_accounted_partial hc h hl k hk
  rw [hidle, hj] at this
  simp only [List.map_nil, List.not_mem_nil, false_or, false_and, exists_false] at this
  rw [show k ∈ keys lp' ↔ k ∈ keys lp from (h2.map Prod.fst).mem_iff, show k ∈ keys le' ↔ k ∈ keys le from (h3.map Prod.fst).mem_iff]
  exact this

example : ∃ s, HReach exCfg Any s ∧ inFlight s.core.tasks = [] ∧ s.jobs = [] ∧ known s.core.log = [1, 2, 3, 4, 5] ∧
    (Pair.open 2 (Handler.terminate s).core.pair.pending.db (Handler.terminate s).core.pair.error.db).pending.size = 2 ∧
    (Pair.open 2 (Handler.terminate s).core.pair.pending.db (Handler.terminate s).core.pair.error.db).error.size = 3 :=
  ⟨exH, exH_reach, by decide, by decide, by decide, by decide, by decide⟩

/-- **C26 is false of the code**: the request being handled when the signal arrives is in neither file
afterwards; nor is an acknowledged request whose push has not run. -/
theorem C26_stop_refuted :
    (∃ s, HReach exCfg Any s ∧ .acked 8 [18] 5 ∈ s.core.log ∧ s.core.tasks = [.inFlight ⟨8, 0, [18], 5⟩] ∧
      (Pair.open 2 (Handler.terminate s).core.pair.pending.db (Handler.terminate s).core.pair.error.db) = Pair.open 2 [] []) ∧
    (∃ s, HReach exCfg Any s ∧ .acked 8 [18] 5 ∈ s.core.log ∧ s.jobs = [(8, [18], 5)] ∧
      (Pair.open 2 (Handler.terminate s).core.pair.pending.db (Handler.terminate s).core.pair.error.db) = Pair.open 2 [] []) :=
  ⟨⟨(hrun exCfg emptyH [.arrive 8 [18], .accept 0 5, .push 0, .start 0]).get (by decide),
    hrun_reach emptyH_reach (Option.some_get _).symm, by decide, by decide, by decide⟩,
   ⟨(hrun exCfg emptyH [.arrive 8 [18], .accept 0 5]).get (by decide),
    hrun_reach emptyH_reach (Option.some_get _).symm, by decide, by decide, by decide⟩⟩

end Verif.Buffered
