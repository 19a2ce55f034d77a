import Verif.Buffered.Drain
import Verif.Buffered.Props
import Mathlib.Logic.Function.Iterate

/-!
# C82: work is brought to an end

No event of the model is forced to happen, so "eventually" is said in two parts. First, what an endpoint or a sender does on its own is bounded in
number: it cannot go on for ever. Second, however the events are chosen, as long as one is chosen whenever one is possible, it ends
with nothing pending and every message settled.
-/

set_option linter.unusedSectionVars false

namespace Verif.Buffered

open Verif.Py Verif.Queue Verif.Queue.Spec Verif.Pending

variable {K D M R S : Type} [DecidableEq K]

/-- **C82**, no endless work, sender: left alone, the workers of a sender have at most as many events as there are attempts left. -/
theorem C82_bounded_sender {cfg : Cfg K D M R S} (hc : cfg.codecs.Lawful) {s s'} (h : SReach cfg Any s) {lp le}
    (hl : PairHolds cfg.codecs s.pair lp le) (ls : List (Sender.Label K D R)) (hw : ∀ l ∈ ls, SWork l) (hs : srun cfg s ls = some s') :
    ls.length ≤ toDo (cap cfg) lp s.tasks := by
  induction ls generalizing s lp le with
  | nil => simp
  | cons l ls ih =>
    simp only [srun] at hs
    cases h1 : Sender.step cfg s l with
    | none => rw [h1] at hs; cases hs
    | some s1 =>
      rw [h1] at hs
      simp only at hs
      obtain ⟨hT, lp0, le0, hi0⟩ := h.core hc
      have hi := inv_of hi0 hl
      have hwl := hw l (by simp)
      have hr : SReach cfg Any s1 := .step h trivial h1
      have key : ∃ lp' le', Pending.Inv cfg.codecs s1.pair lp' le' ∧ toDo (cap cfg) lp' s1.tasks < toDo (cap cfg) lp s.tasks := by
        cases l with
        | start t => obtain ⟨lp', a, b⟩ := start_toDo hc hT hi h1; exact ⟨lp', _, a, b⟩
        | finish t o => exact finish_toDo hc hT hi h1
        | _ => cases hwl
      obtain ⟨lp', le', a, b⟩ := key
      have := ih hr a.holds (fun l hl => hw l (by simp [hl])) hs
      simp only [List.length_cons]
      omega

/-- **C82**, no endless work, endpoint: the same, counting requests that are being taken in or have yet to be queued. -/
theorem C82_bounded_endpoint {cfg : Cfg K D M R S} (hc : cfg.codecs.Lawful) {s s'} (h : HReach cfg Any s) {lp le}
    (hl : PairHolds cfg.codecs s.core.pair lp le) (ls : List (Handler.Label K D M R)) (hw : ∀ l ∈ ls, HOwn l) (hs : hrun cfg s ls = some s') :
    ls.length ≤ s.collecting.length * (cap cfg + 3) + s.jobs.length * (cap cfg + 1) + toDo (cap cfg) lp s.core.tasks := by
  induction ls generalizing s lp le with
  | nil => simp
  | cons l ls ih =>
    simp only [hrun] at hs
    cases h1 : Handler.step cfg s l with
    | none => rw [h1] at hs; cases hs
    | some s1 =>
      rw [h1] at hs
      simp only at hs
      obtain ⟨hT, lp0, le0, hi0⟩ := h.core hc
      have hi := inv_of hi0 hl
      have hwl := hw l (by simp)
      have hr : HReach cfg Any s1 := .step h trivial h1
      have key : ∃ lp' le', Pending.Inv cfg.codecs s1.core.pair lp' le' ∧
          s1.collecting.length * (cap cfg + 3) + s1.jobs.length * (cap cfg + 1) + toDo (cap cfg) lp' s1.core.tasks <
            s.collecting.length * (cap cfg + 3) + s.jobs.length * (cap cfg + 1) + toDo (cap cfg) lp s.core.tasks := by
        have er : ∀ {α : Type} (l : List α) (i : Nat) (x : α) (n : Nat), l[i]? = some x → l.length * n = (l.eraseIdx i).length * n + n := by
          intro α l i x n hx
          have hlt := (List.getElem?_eq_some_iff.mp hx).1
          rw [List.length_eraseIdx, if_pos hlt, ← Nat.succ_mul]
          congr 1
          omega
        cases l with
        | accept i m =>
          simp only [Handler.step] at h1
          cases hg : s.collecting[i]? with
          | none => rw [hg] at h1; cases h1
          | some x =>
            obtain ⟨k, d⟩ := x
            rw [hg] at h1
            simp only [Option.some.injEq] at h1
            subst h1
            refine ⟨lp, le, ?_, ?_⟩
            · simp only [(check_fields _).1]; exact hi
            · have e1 := er _ _ _ (cap cfg + 3) hg
              have e2 := check_toDo (s.core.emit (.acked k d m)) (cap cfg) lp
              have e3 : (s.jobs.length + 1) * (cap cfg + 1) = s.jobs.length * (cap cfg + 1) + (cap cfg + 1) := Nat.succ_mul _ _
              simp only [St.emit, List.length_append, List.length_singleton] at e2 ⊢
              omega
        | refuse i =>
          simp only [Handler.step] at h1
          cases hg : s.collecting[i]? with
          | none => rw [hg] at h1; cases h1
          | some x =>
            obtain ⟨k, d⟩ := x
            rw [hg] at h1
            simp only [Option.some.injEq] at h1
            subst h1
            refine ⟨lp, le, hi, ?_⟩
            have e1 := er _ _ _ (cap cfg + 3) hg
            simp only [St.emit]
            omega
        | push i =>
          simp only [Handler.step] at h1
          cases hg : s.jobs[i]? with
          | none => rw [hg] at h1; cases h1
          | some x =>
            obtain ⟨k, d, m⟩ := x
            rw [hg] at h1
            simp only [Option.some.injEq] at h1
            subst h1
            refine ⟨_, _, (inv_pushPending hc hi k d 0 m).2, ?_⟩
            have e1 := er _ _ _ (cap cfg + 1) hg
            have e2 := load_push (cap cfg) lp ⟨k, 0, d, m⟩ k
            have e3 : left (cap cfg) 0 = cap cfg := by unfold left cap; omega
            simp only [e3, toDo] at e2 ⊢
            omega
        | start t =>
          simp only [Handler.step, Option.map_eq_some_iff] at h1
          obtain ⟨c, hcs, rfl⟩ := h1
          obtain ⟨lp', a, b⟩ := start_toDo hc hT hi hcs
          exact ⟨lp', _, a, by simp only; omega⟩
        | finish t o =>
          have h2 : ∃ c, s.core.finish cfg t o = some c ∧ s1 = { s with core := c } := by
            cases o <;> simp only [Handler.step, Option.map_eq_some_iff] at h1
            all_goals first | cases h1; done | (obtain ⟨c, a, b⟩ := h1; exact ⟨c, a, b.symm⟩)
          obtain ⟨c, hcs, rfl⟩ := h2
          obtain ⟨lp', le', a, b⟩ := finish_toDo hc hT hi hcs
          exact ⟨lp', le', a, by simp only; omega⟩
        | _ => cases hwl
      obtain ⟨lp', le', a, b⟩ := key
      have := ih hr a.holds (fun l hl => hw l (by simp [hl])) hs
      simp only [List.length_cons]
      omega

/-- The bound is attained: three attempts for each of two messages and the start of the worker. -/
example : ∃ s, SReach exCfg Any s ∧ PairHolds exCfg.codecs s.pair [(8, ⟨8, 0, [18], 0⟩), (9, ⟨9, 0, [19], 0⟩)] [] ∧
    toDo (cap exCfg) [(8, ⟨8, 0, [18], 0⟩), (9, ⟨9, 0, [19], (0 : Nat)⟩)] s.tasks = 7 ∧
    (srun exCfg s (.start 0 :: List.replicate 6 (.finish 0 .retry))).isSome = true := by
  refine ⟨(srun exCfg emptyS [.enqueue 8 [18], .enqueue 9 [19]]).get (by decide), srun_reach emptyS_reach (Option.some_get _).symm, ?_, by decide, by decide⟩
  have h0 : Pending.Inv exCfg.codecs (Pair.open 2 [] []) [] [] := inv_new idCodecs_lawful (by decide)
  exact (inv_pushPending idCodecs_lawful (inv_pushPending idCodecs_lawful h0 8 [18] 0 0).2 9 [19] 0 0).2.holds

/-- **C82**, sender, part that holds: however the workers' events are chosen, if no attempt ends with an exception and payloads can be read
back, an unpaused sender comes to an end within the bound: nothing is pending or being sent, and every message it knows was sent, is in
the error queue, or was removed by an operator. Missing: cancellation and unreadable payloads (see `C19_awake_refuted`). -/
theorem C82_sender_partial {cfg : Cfg K D M R S} (hc : cfg.codecs.Lawful) (hid : ∀ d d', cfg.build d = some d' → cfg.build d' = some d')
    {s} (h : SReach cfg (NoCancel cfg) s) (hf1 : ∀ e, .found e ∈ s.log → cfg.build e.data ≠ none)
    (hf2 : ∀ e, .foundFailed e ∈ s.log → cfg.build e.data ≠ none) (hp : s.paused = false) {lp le} (hl : PairHolds cfg.codecs s.pair lp le)
    (next : St K D M R S → Sender.Label K D R) (hn : SKeepsGoing cfg next) :
    ∃ n s' le', n ≤ toDo (cap cfg) lp s.tasks ∧ SFollows cfg next n s s' ∧ PairHolds cfg.codecs s'.pair [] le' ∧
      (∀ (t : Nat) (x : Task K D M), s'.tasks[t]? = some x → x = .done) ∧
      ∀ k ∈ known s.log, k ∈ keys le' ∨ .succeeded k ∈ s'.log ∨ k ∈ removed s'.log := by
  generalize hw : toDo (cap cfg) lp s.tasks = w
  induction w using Nat.strongRecOn generalizing s lp le with
  | _ w ih =>
    obtain ⟨hT, lp0, le0, hi0⟩ := h.core hc
    have hi := inv_of hi0 hl
    by_cases hst : ∃ l s1, SWork l ∧ Sender.step cfg s l = some s1
    · obtain ⟨l, s1, hlw, hls⟩ := hst
      obtain ⟨hw1, hnr, s2, hs2⟩ := hn s l s1 hlw hls
      have hr : SReach cfg (NoCancel cfg) s2 := .step h ⟨hnr, fun k d e => by rw [e] at hw1; cases hw1⟩ hs2
      have hws : (∃ t, s.start cfg t = some s2) ∨ ∃ t o, s.finish cfg t o = some s2 := by
        cases hnx : next s with
        | start t => rw [hnx] at hs2; exact .inl ⟨t, hs2⟩
        | finish t o => rw [hnx] at hs2; exact .inr ⟨t, o, hs2⟩
        | _ => rw [hnx] at hw1; cases hw1
      obtain ⟨g1, g2, g3, g4, _⟩ := worker_log hc hT hi hws
      have key : ∃ lp' le', Pending.Inv cfg.codecs s2.pair lp' le' ∧ toDo (cap cfg) lp' s2.tasks < toDo (cap cfg) lp s.tasks := by
        rcases hws with ⟨t, h1⟩ | ⟨t, o, h1⟩
        · obtain ⟨lp', a, b⟩ := start_toDo hc hT hi h1; exact ⟨lp', _, a, b⟩
        · exact finish_toDo hc hT hi h1
      obtain ⟨lp', le', a, b⟩ := key
      obtain ⟨n, s', le'', i1, i2, i3, i4, i5⟩ := ih _ (hw ▸ b) hr (fun e he => hf1 e (g2 e he)) (fun e he => hf2 e (g3 e he))
        (g1.trans hp) a.holds rfl
      exact ⟨n + 1, s', le'', by omega, ⟨s2, hs2, i2⟩, i3, i4, fun k hk => i5 k (g4 ▸ hk)⟩
    · have hd := all_done (cfg := cfg) (s := s)
        (fun t => by
          cases e : s.start cfg t with
          | none => rfl
          | some x => exact absurd ⟨.start t, x, trivial, e⟩ hst)
        (fun t => by
          cases e : s.finish cfg t .ok with
          | none => rfl
          | some x => exact absurd ⟨.finish t .ok, x, trivial, e⟩ hst)
      have hlost : lostKeys s.log = [] := by
        obtain ⟨lp0, le0, a, h1, h2, h3, h4, h5, h6, h7⟩ := sreach_amounts ⟨true, false, false⟩ hc
          (by intro s l hp; exact ⟨by simp, fun t e => absurd e (hp.1 t), fun k d e => .inl (hp.2 k d e)⟩) h
        have hr := micros_ind (readable_micro rfl rfl (fun d d' hd => by rw [hid d d' hd]; simp)) h5
          (readable_ofLists (fun e he => hf1 e (by rw [h6.log]; exact micros_mem h5 he))
            (fun e he => hf2 e (by rw [h6.log]; exact micros_mem h5 he)))
        rw [h6.log]
        exact hr.none
      have he := empty_of_done hc hT hi (awake_s hc h.any) hp hlost hd
      subst he
      refine ⟨0, s, le, by omega, rfl, hl, hd, fun k hk => ?_⟩
      have := C25_never_lost_partial hc hid h hf1 hf2 hl k hk
      rw [inFlight_nil hd] at this
      simpa [keys] using this

/-- A choice that keeps going: the first worker that is not at its end runs; every attempt fails. -/
def failing (s : St K D M R S) : Sender.Label K D R :=
  match s.tasks.findIdx? fun x => match x with | .done => false | _ => true with
  | none => .pause
  | some t => match s.tasks[t]? with
    | some .scheduled => .start t
    | _ => .finish t .retry

/-- The hypothesis of `C82_sender_partial` can be met: `failing` keeps going. -/
theorem failing_keeps (cfg : Cfg K D M R S) : SKeepsGoing cfg failing := by
  intro s l s' hw hs
  have hex : ∃ (t : Nat) (x : Task K D M), s.tasks[t]? = some x ∧ x ≠ .done := by
    cases l with
    | start t =>
      simp only [Sender.step, St.start] at hs
      split at hs
      · rename_i ht; exact ⟨t, _, ht, by simp⟩
      · cases hs
    | finish t o =>
      obtain ⟨e, ht⟩ := finish_flight hs
      exact ⟨t, _, ht, by simp⟩
    | _ => cases hw
  obtain ⟨t0, x0, h0, hne⟩ := hex
  unfold failing
  cases hf : s.tasks.findIdx? fun x => match x with | .done => false | _ => true with
  | none =>
    rw [List.findIdx?_eq_none_iff] at hf
    have := hf x0 (List.mem_of_getElem? h0)
    cases x0 <;> simp at this hne
  | some t =>
    obtain ⟨hlt, hp, _⟩ := List.findIdx?_eq_some_iff_getElem.mp hf
    have hg : s.tasks[t]? = some s.tasks[t] := List.getElem?_eq_getElem hlt
    simp only [hg]
    cases hx : s.tasks[t] with
    | done => rw [hx] at hp; simp at hp
    | scheduled =>
      rw [hx] at hg
      refine ⟨trivial, by simp, ?_⟩
      simp only [Sender.step, St.start, hg]
      exact ⟨_, rfl⟩
    | inFlight e =>
      rw [hx] at hg
      refine ⟨trivial, by simp, ?_⟩
      simp only [Sender.step, St.finish, hg]
      exact ⟨_, rfl⟩

/-- One event of `failing`. -/
def failingStep (s : Option (St Nat (List Nat) Nat Nat (PEntry Nat (List Nat) Nat ⊕ EEntry Nat (List Nat) Nat Nat))) :
    Option (St Nat (List Nat) Nat Nat (PEntry Nat (List Nat) Nat ⊕ EEntry Nat (List Nat) Nat Nat)) :=
  s.bind fun s => Sender.step exCfg s (failing s)

/-- Two messages; seven events of `failing` later both are in the error queue. -/
example : ((failingStep^[7] (srun exCfg emptyS [.enqueue 8 [18], .enqueue 9 [19]])).map fun s => (s.pair.pending.size, s.pair.error.size)) =
    some (0, 2) := by decide

/-- **C82**, endpoint, part that holds: the same, from any moment at which a worker is alive and no request is between its acceptance and the
queue; `C18_woken_partial` says that accepting, unpausing and reprocessing make a worker. Missing: exceptions, unreadable payloads and
the push that comes too late, see `C82_late_push_refuted`. -/
theorem C82_endpoint_partial {cfg : Cfg K D M R S} (hc : cfg.codecs.Lawful) (hid : ∀ d d', cfg.build d = some d' → cfg.build d' = some d')
    {s} (h : HReach cfg NoRaise s) (hf1 : ∀ e, .found e ∈ s.core.log → cfg.build e.data ≠ none)
    (hf2 : ∀ e, .foundFailed e ∈ s.core.log → cfg.build e.data ≠ none) (hp : s.core.paused = false) (hj : s.jobs = [])
    {t : Nat} (ht : s.core.tasks[t]? = some .scheduled ∨ ∃ e, s.core.tasks[t]? = some (.inFlight e)) {lp le}
    (hl : PairHolds cfg.codecs s.core.pair lp le) (next : Handler.HSt K D M R S → Handler.Label K D M R) (hn : HKeepsGoing cfg next) :
    ∃ n s' le', n ≤ toDo (cap cfg) lp s.core.tasks ∧ HFollows cfg next n s s' ∧ PairHolds cfg.codecs s'.core.pair [] le' ∧
      (∀ (t : Nat) (x : Task K D M), s'.core.tasks[t]? = some x → x = .done) ∧
      ∀ k ∈ known s.core.log, k ∈ keys le' ∨ .succeeded k ∈ s'.core.log ∨ k ∈ removed s'.core.log := by
  have haw : Awake s.core := by
    obtain ⟨hT, _⟩ := h.core hc
    intro hw
    have : s.core.noWorker = false := by
      rcases ht with ht | ⟨e, ht⟩
      · exact noWorker_alive (hT.single t _ ht (by simp)) ht (by simp)
      · exact noWorker_alive (hT.single t _ ht (by simp)) ht (by simp)
    rw [this] at hw
    cases hw
  clear ht
  generalize hw : toDo (cap cfg) lp s.core.tasks = w
  induction w using Nat.strongRecOn generalizing s lp le with
  | _ w ih =>
    obtain ⟨hT, lp0, le0, hi0⟩ := h.core hc
    have hi := inv_of hi0 hl
    by_cases hst : ∃ l s1, HWork l ∧ Handler.step cfg s l = some s1
    · obtain ⟨l, s1, hlw, hls⟩ := hst
      obtain ⟨hw1, hnr, s2, hs2⟩ := hn s l s1 hlw hls
      have hr : HReach cfg NoRaise s2 := .step h hnr hs2
      have hws : ∃ c, ((∃ t, s.core.start cfg t = some c) ∨ ∃ t o, s.core.finish cfg t o = some c) ∧ s2 = { s with core := c } := by
        cases hnx : next s with
        | start t =>
          rw [hnx] at hs2
          simp only [Handler.step, Option.map_eq_some_iff] at hs2
          obtain ⟨c, hcs, rfl⟩ := hs2
          exact ⟨c, .inl ⟨t, hcs⟩, rfl⟩
        | finish t o =>
          rw [hnx] at hs2
          cases o <;> simp only [Handler.step, Option.map_eq_some_iff] at hs2
          all_goals first | cases hs2; done | (obtain ⟨c, a, b⟩ := hs2; exact ⟨c, .inr ⟨t, _, a⟩, b.symm⟩)
        | _ => rw [hnx] at hw1; cases hw1
      obtain ⟨c, hws, rfl⟩ := hws
      obtain ⟨g1, g2, g3, g4, _⟩ := worker_log hc hT hi hws
      have key : ∃ lp' le', Pending.Inv cfg.codecs c.pair lp' le' ∧ toDo (cap cfg) lp' c.tasks < toDo (cap cfg) lp s.core.tasks := by
        rcases hws with ⟨t, h1⟩ | ⟨t, o, h1⟩
        · obtain ⟨lp', a, b⟩ := start_toDo hc hT hi h1; exact ⟨lp', _, a, b⟩
        · exact finish_toDo hc hT hi h1
      have haw' : Awake c := by
        rcases hws with ⟨t, h1⟩ | ⟨t, o, h1⟩
        · exact awake_start hc hT hi h1
        · exact awake_finish hc hT hi h1
      obtain ⟨lp', le', a, b⟩ := key
      obtain ⟨n, s', le'', i1, i2, i3, i4, i5⟩ := ih _ (hw ▸ b) hr (fun e he => hf1 e (g2 e he)) (fun e he => hf2 e (g3 e he))
        (g1.trans hp) hj a.holds haw' rfl
      exact ⟨n + 1, s', le'', by simp only at i1 b; omega, ⟨_, hs2, i2⟩, i3, i4, fun k hk => i5 k (by simp only [g4]; exact hk)⟩
    · have hd := all_done (cfg := cfg) (s := s.core)
        (fun t => by
          cases e : s.core.start cfg t with
          | none => rfl
          | some x => exact absurd ⟨.start t, { s with core := x }, trivial, by simp [Handler.step, e]⟩ hst)
        (fun t => by
          cases e : s.core.finish cfg t .ok with
          | none => rfl
          | some x => exact absurd ⟨.finish t .ok, { s with core := x }, trivial, by simp [Handler.step, e]⟩ hst)
      have hlost : lostKeys s.core.log = [] := by
        obtain ⟨lp0, le0, a, h1, h2, h3, h4, h5, h6⟩ := hreach_amounts ⟨false, false, false⟩ hc
          (by intro s l hp t e; exact absurd e (hp t)) h
        have hr := micros_ind (readable_micro rfl rfl (fun d d' hd => by rw [hid d d' hd]; simp)) h5
          (readable_ofLists (fun e he => hf1 e (by rw [h6.core.log]; exact micros_mem h5 he))
            (fun e he => hf2 e (by rw [h6.core.log]; exact micros_mem h5 he)))
        rw [h6.core.log]
        exact hr.none
      have he := empty_of_done hc hT hi haw hp hlost hd
      subst he
      refine ⟨0, s, le, by omega, rfl, hl, hd, fun k hk => ?_⟩
      have := C17_never_lost_partial hc hid h hf1 hf2 hl k hk
      rw [inFlight_nil hd, hj] at this
      simpa [keys] using this

/-- The same choice for an endpoint. -/
def failingH (s : Handler.HSt K D M R S) : Handler.Label K D M R :=
  match failing s.core with
  | .start t => .start t
  | .finish t o => .finish t o
  | _ => .pauseReceiving

/-- The hypothesis of `C82_endpoint_partial` can be met: `failingH` keeps going. -/
theorem failingH_keeps (cfg : Cfg K D M R S) : HKeepsGoing cfg failingH := by
  intro s l s' hw hs
  have hex : ∃ l1 c, SWork l1 ∧ Sender.step cfg s.core l1 = some c := by
    cases l with
    | start t =>
      simp only [Handler.step, Option.map_eq_some_iff] at hs
      obtain ⟨c, h1, _⟩ := hs
      exact ⟨.start t, c, trivial, h1⟩
    | finish t o =>
      have : ∃ c, s.core.finish cfg t o = some c := by
        cases o <;> simp only [Handler.step, Option.map_eq_some_iff] at hs
        all_goals first | cases hs; done | (obtain ⟨c, h1, _⟩ := hs; exact ⟨c, h1⟩)
      obtain ⟨c, h1⟩ := this
      exact ⟨.finish t o, c, trivial, h1⟩
    | _ => cases hw
  obtain ⟨l1, c, h1, h2⟩ := hex
  obtain ⟨k1, k2, s1, k3⟩ := failing_keeps cfg s.core l1 c h1 h2
  unfold failingH
  cases hf : failing s.core with
  | start t =>
    rw [hf] at k3
    exact ⟨trivial, by simp, { s with core := s1 }, by simp only [Handler.step]; rw [show s.core.start cfg t = some s1 from k3]; rfl⟩
  | finish t o =>
    have ho : o = .retry := by
      unfold failing at hf
      split at hf
      · cases hf
      · split at hf
        · cases hf
        · cases hf; rfl
    subst ho
    rw [hf] at k3
    exact ⟨trivial, by simp, { s with core := s1 }, by simp only [Handler.step]; rw [show s.core.finish cfg t .retry = some s1 from k3]; rfl⟩
  | _ => rw [hf] at k1; cases k1

/-- Request 7 is being handled and request 8 is pending; a worker is alive and no push is left over. -/
example : ∃ s, HReach exCfg NoRaise s ∧ s.core.paused = false ∧ s.jobs = [] ∧ s.core.tasks[0]? = some (.inFlight ⟨7, 0, [17], 5⟩) ∧
    s.core.pair.pending.size = 1 ∧ known s.core.log = [8, 7] := by
  refine ⟨(hrun exCfg emptyH [.arrive 7 [17], .accept 0 5, .push 0, .start 0, .arrive 8 [18], .accept 0 6, .push 0]).get (by decide), ?_,
    by decide, by decide, by decide, by decide, by decide⟩
  exact .step (l := .push 0) (.step (l := .accept 0 6) (.step (l := .arrive 8 [18]) (.step (l := .start 0)
      (.step (l := .push 0) (.step (l := .accept 0 5) (.step (l := .arrive 7 [17]) (.setup (.new (by decide : 0 < 2)))
      (by simp [NoRaise]) rfl) (by simp [NoRaise]) rfl) (by simp [NoRaise]) rfl) (by simp [NoRaise]) rfl) (by simp [NoRaise]) rfl)
      (by simp [NoRaise]) rfl) (by simp [NoRaise]) rfl

/-- **C82 is false of the code** for endpoints: in the state of `C18_awake_refuted` a request is pending, and the endpoint can do nothing on its
own. -/
theorem C82_late_push_refuted :
    ∃ s, HReach exCfg NoRaise s ∧ s.core.paused = false ∧ s.core.pair.pending.size = 1 ∧ .acked 8 [18] 6 ∈ s.core.log ∧
      ∀ l, HOwn l → Handler.step exCfg s l = none := by
  have hr : ∃ s, HReach exCfg NoRaise s ∧ hrun exCfg emptyH [.arrive 7 [17], .accept 0 5, .push 0, .start 0, .arrive 8 [18], .accept 0 6, .finish 0 .ok, .push 0] = some s := by
    refine ⟨_, ?_, (Option.some_get (by decide)).symm⟩
    refine .step (l := .push 0) (.step (l := .finish 0 .ok) (.step (l := .accept 0 6) (.step (l := .arrive 8 [18]) (.step (l := .start 0)
      (.step (l := .push 0) (.step (l := .accept 0 5) (.step (l := .arrive 7 [17]) (.setup (.new (by decide : 0 < 2)))
      (by simp [NoRaise]) rfl) (by simp [NoRaise]) rfl) (by simp [NoRaise]) rfl) (by simp [NoRaise]) rfl) (by simp [NoRaise]) rfl)
      (by simp [NoRaise]) rfl) (by simp [NoRaise]) rfl) (by simp [NoRaise]) rfl
  obtain ⟨s, hs, he⟩ := hr
  have hv : ((hrun exCfg emptyH [.arrive 7 [17], .accept 0 5, .push 0, .start 0, .arrive 8 [18], .accept 0 6, .finish 0 .ok, .push 0]).map fun s =>
      (s.core.paused, s.core.pair.pending.size, s.core.log, s.core.tasks, s.jobs, s.collecting)) =
      some (false, 1, [.succeeded 7, .acked 8 [18] 6, .started ⟨7, 0, [17], 5⟩, .acked 7 [17] 5], [.done], [], []) := by rfl
  rw [he] at hv
  simp only [Option.map_some, Option.some.injEq, Prod.mk.injEq] at hv
  obtain ⟨h1, h2, h3, h4, h5, h6⟩ := hv
  refine ⟨s, hs, h1, h2, by rw [h3]; simp, fun l hl => ?_⟩
  have hdone : ∀ (t : Nat) (x : Task Nat (List Nat) Nat), s.core.tasks[t]? = some x → x = .done := by
    intro t x hx
    rw [h4] at hx
    cases t with
    | zero => simpa using hx.symm
    | succ t => simp at hx
  cases l with
  | accept i m => simp only [Handler.step, h6, List.getElem?_nil]
  | refuse i => simp only [Handler.step, h6, List.getElem?_nil]
  | push i => simp only [Handler.step, h5, List.getElem?_nil]
  | start t =>
    simp only [Handler.step, St.start]
    cases hg : s.core.tasks[t]? with
    | none => rfl
    | some x => rw [hdone t x hg]; rfl
  | finish t o =>
    have : s.core.finish exCfg t o = none := by
      unfold St.finish
      cases hg : s.core.tasks[t]? with
      | none => rfl
      | some x => rw [hdone t x hg]
    cases o <;> simp only [Handler.step, this, Option.map_none]
  | _ => cases hl

end Verif.Buffered
