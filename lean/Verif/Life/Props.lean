import Verif.Life.Lemmas
import Verif.Pending.Props

/-!
# C74, C75: the end of an application
-/

namespace Verif.Life

open Verif.Py Verif.Pending Spec

variable {Q : Type}

/-! ### C74 -/

/-- **C74**, the part that holds. No signal arrives once the application has begun to stop, no server is in the middle of starting when
the tasks are cancelled, and saving a queue works. Then, whatever the body of the context does, whichever queues cannot be opened, and
whenever signals arrive before that: the queues that were opened (the first `k`) are saved, once each and in order, with what they held
when the tasks had ended; nothing but an `AttributeError` leaves the context, and only if some component was not completely set up; if
nothing leaves it, the last thing that happens is that the log is flushed.
Missing: the hypotheses (refuted below), and that nothing leaves the context and the log is flushed in every case. -/
theorem C74_saved_partial {E : Env Q} (hq : ∀ t, E.signal .down t = false) (xs : List Action) (tcp udp uds : Bool) (n : Nat)
    (ht : tcp = false ∨ E.phase .tcp ≠ .entering) (hu : uds = false ∨ E.phase .uds ≠ .entering)
    (hsave : ∀ i q, E.opens i = .ok q → (E.save (E.work i q)).1 = .ok ()) :
    ∃ k ≤ n, openedIn (life E xs (fresh tcp udp uds n)).2.sys.log = List.range k ∧
      savedIn (life E xs (fresh tcp udp uds n)).2.sys.log = List.range k ∧
      (∀ i < k, ∃ q, E.opens i = .ok q ∧
        (life E xs (fresh tcp udp uds n)).2.comps[i]?.bind Comp.queue = some (E.save (E.work i q)).2) ∧
      ((life E xs (fresh tcp udp uds n)).1 = none ∨ (life E xs (fresh tcp udp uds n)).1 = some .attributeError) ∧
      ((life E xs (fresh tcp udp uds n)).1 = none ↔
        ∀ c ∈ (life E xs (fresh tcp udp uds n)).2.comps, c.future = some true) ∧
      (k < n → (life E xs (fresh tcp udp uds n)).1 ≠ none) ∧
      ((life E xs (fresh tcp udp uds n)).1 = none → FlushedLast (life E xs (fresh tcp udp uds n)).2.sys.log) := by
  obtain ⟨k, d, a, hr, he⟩ := life_ready hq xs tcp udp uds n ht hu
  obtain ⟨g1, g2, g3, g4, g5, g6, g7⟩ := doShutdown_ready hq hsave hr
  rw [he]
  have hle := hr.shape.le
  rw [hr.length] at hle
  refine ⟨k, hle.1, g5, g6, g3, ?_, ?_, ?_, ?_⟩
  · rw [g1]; cases d <;> simp
  · rw [g4, g1]; cases d <;> simp
  · intro hk
    cases d with
    | true => have := hle.2 rfl; omega
    | false => rw [g1]; simp
  · intro h
    rw [g1] at h
    exact g7 (by cases d <;> simp_all)

/-- **C74** for an application that started: nothing went wrong while it was set up. Whatever ends it then, every queue is saved, nothing
leaves the context and the log is flushed. -/
theorem C74_started {E : Env Q} (hsig : ∀ st t, E.signal st t = false) (htasks : E.tasks = none) (m : Nat) (xs : List Action)
    (tcp udp uds : Bool) (n : Nat) (hopen : ∀ i < n, ∃ q, E.opens i = .ok q)
    (ht : tcp = false ∨ E.phase .tcp ≠ .entering) (hu : uds = false ∨ E.phase .uds ≠ .entering)
    (hsave : ∀ i q, E.opens i = .ok q → (E.save (E.work i q)).1 = .ok ()) :
    (life E (List.replicate m (.code none) ++ .start :: xs) (fresh tcp udp uds n)).1 = none ∧
      openedIn (life E (List.replicate m (.code none) ++ .start :: xs) (fresh tcp udp uds n)).2.sys.log = List.range n ∧
      savedIn (life E (List.replicate m (.code none) ++ .start :: xs) (fresh tcp udp uds n)).2.sys.log = List.range n ∧
      FlushedLast (life E (List.replicate m (.code none) ++ .start :: xs) (fresh tcp udp uds n)).2.sys.log := by
  obtain ⟨a, he, h1, h2, h3, h4, h5, h6, h7, h8⟩ := life_started (fun t => hsig .up t) (fun t => hsig .down t) htasks hopen m xs tcp udp uds
  have hf := notStarted_fresh (Q := Q) tcp udp uds n true
  have hr : Ready E n n true a := by
    refine ⟨h1, h2, h3, h4, h5, ?_, ?_, ?_⟩
    · rw [h6]; exact sound_after _ hf.tcp (.inr (ht.imp (fun h => by subst h; rfl) id))
    · rw [h7]; exact sound_after _ hf.udp (.inl rfl)
    · rw [h8]; exact sound_after _ hf.uds (.inr (hu.imp (fun h => by subst h; rfl) id))
  obtain ⟨g1, g2, g3, g4, g5, g6, g7⟩ := doShutdown_ready (fun t => hsig .down t) hsave hr
  rw [he]
  exact ⟨g1, g5, g6, g7 rfl⟩

variable {K D M R S : Type} [DecidableEq K]

/-- **C74** for the queues there are: after the context has ended, opening the files again, with any page size, finds in every queue that was
opened just the pending and the failed entries it held when the tasks had ended. -/
theorem C74_kept_partial {c : Codecs K D M R S} (hc : c.Lawful) {E : Env (Pair K S)} (hE : E.save = Pair.shutDown)
    (hw : ∀ i q, E.opens i = .ok q → PReach c (E.work i q)) (hq : ∀ t, E.signal .down t = false) (xs : List Action)
    (tcp udp uds : Bool) (n : Nat) (ht : tcp = false ∨ E.phase .tcp ≠ .entering) (hu : uds = false ∨ E.phase .uds ≠ .entering)
    {i : Nat} (hi : i ∈ openedIn (life E xs (fresh tcp udp uds n)).2.sys.log) :
    ∃ q q', E.opens i = .ok q ∧ (life E xs (fresh tcp udp uds n)).2.comps[i]?.bind Comp.queue = some q' ∧
      ∃ lp le, PairHolds c (E.work i q) lp le ∧
        ∀ p, 0 < p → ∃ lp' le', PairHolds c (Pair.open p q'.pending.db q'.error.db) lp' le' ∧ lp'.Perm lp ∧ le'.Perm le := by
  have hsave : ∀ i q, E.opens i = .ok q → (E.save (E.work i q)).1 = .ok () := by
    intro i q ho
    obtain ⟨lp, le, h⟩ := preach_inv hc (hw i q ho)
    rw [hE, pair_shutDown hc h]
  obtain ⟨k, -, h1, -, h3, -⟩ := C74_saved_partial hq xs tcp udp uds n ht hu hsave
  rw [h1, List.mem_range] at hi
  obtain ⟨q, g1, g2⟩ := h3 i hi
  obtain ⟨lp, le, h⟩ := preach_inv hc (hw i q g1)
  refine ⟨q, _, g1, g2, lp, le, h.holds, ?_⟩
  intro p hp
  rw [hE, pair_shutDown hc h]
  obtain ⟨_, r1, l1, k1, p1⟩ := Verif.Queue.C06_restart hc.1 h.rp h.holds.p hp
  obtain ⟨_, r2, l2, k2, p2⟩ := Verif.Queue.C06_restart hc.2 h.re h.holds.e hp
  exact ⟨l1, l2, ⟨k1, k2, fun x hx => h.holds.pKeys x (p1.subset hx), fun x hx => h.holds.eKeys x (p2.subset hx)⟩, p1, p2⟩

/-! ### examples and refutations of C74 -/

/-- Two components whose queues are numbers; a TCP server; a signal ends `gather`; saving adds hundred. -/
def sampleEnv : Env Nat where
  signal := fun _ _ => false
  opens := fun i => .ok i
  tasks := none
  phase := fun _ => .serving
  ending := .termination
  work := fun _ q => q + 10
  busy := fun _ => false
  save := fun q => (.ok (), q + 100)

example : (∀ st t, sampleEnv.signal st t = false) ∧ sampleEnv.phase .tcp ≠ .entering ∧
    (∀ i q, sampleEnv.opens i = .ok q → (sampleEnv.save (sampleEnv.work i q)).1 = .ok ()) ∧
    (life sampleEnv [.start] (fresh true true false 2)).1 = none ∧
    (life sampleEnv [.start] (fresh true true false 2)).2.sys.log = [.opened 0, .opened 1, .flushed, .saved 0, .saved 1, .flushed] ∧
    (life sampleEnv [.start] (fresh true true false 2)).2.comps.map Comp.queue = [some 110, some 111] :=
  ⟨fun _ _ => rfl, by decide, fun _ _ _ => rfl, by decide, by decide, by decide⟩

/-- For `C74_kept_partial`: an endpoint whose queue ends with two pending and three failed requests (`Verif.Pending.sample`). -/
def sampleQueues : Env (Pair Nat (PEntry Nat (List Nat) Nat ⊕ EEntry Nat (List Nat) Nat Nat)) where
  signal := fun _ _ => false
  opens := fun _ => .ok (Pair.open 2 [] [])
  tasks := none
  phase := fun _ => .serving
  ending := .other 7
  work := fun _ _ => sample
  busy := fun _ => false
  save := Pair.shutDown

example : idCodecs.Lawful ∧ (∀ i q, sampleQueues.opens i = .ok q → PReach idCodecs (sampleQueues.work i q)) ∧
    (∀ t, sampleQueues.signal .down t = false) ∧ sampleQueues.phase .tcp ≠ .entering ∧
    0 ∈ openedIn (life sampleQueues [.start] (fresh true false false 1)).2.sys.log ∧
    ((life sampleQueues [.start] (fresh true false false 1)).2.comps[0]?.bind Comp.queue).map
      (fun q => (q.pending.db.length, q.error.db.length)) = some (2, 3) :=
  ⟨idCodecs_lawful, fun _ _ _ => sample_reach, fun _ => rfl, by decide, by decide +kernel, by decide +kernel⟩

/-- A signal while the second component is set up: the first and the second queue are saved, but an `AttributeError` leaves the context. -/
example : (life { sampleEnv with signal := fun st t => st = .up ∧ t = 3 } [.start] (fresh true true false 3)).1 = some .attributeError ∧
    (life { sampleEnv with signal := fun st t => st = .up ∧ t = 3 } [.start] (fresh true true false 3)).2.sys.log =
      [.opened 0, .opened 1, .saved 0, .saved 1] := by decide

/-- **C74** fails while a server starts. If the TCP server (here) is in the middle of starting when the application is ended, an `AttributeError`
leaves the context, and no queue is saved, though all have been opened. -/
theorem C74_half_started_refuted {E : Env Q} (hsig : ∀ st t, E.signal st t = false) (htasks : E.tasks = none) (m : Nat)
    (xs : List Action) (udp uds : Bool) (n : Nat) (hopen : ∀ i < n, ∃ q, E.opens i = .ok q) (ht : E.phase .tcp = .entering) :
    (life E (List.replicate m (.code none) ++ .start :: xs) (fresh true udp uds n)).1 = some .attributeError ∧
      openedIn (life E (List.replicate m (.code none) ++ .start :: xs) (fresh true udp uds n)).2.sys.log = List.range n ∧
      savedIn (life E (List.replicate m (.code none) ++ .start :: xs) (fresh true udp uds n)).2.sys.log = [] := by
  obtain ⟨a, he, h1, h2, h3, h4, h5, h6, h7, h8⟩ := life_started (fun t => hsig .up t) (fun t => hsig .down t) htasks hopen m xs true udp uds
  rw [he]
  have h6' : a.tcp = some { running := true, server := false } := by
    rw [h6, ht]; rfl
  have hq : Quiet E := fun t => hsig .down t
  have : stopServer E .tcp a.tcp a.sys =
      (some .attributeError, some { running := false, server := false }, { a.sys with clock := a.sys.clock + 1 }) := by
    unfold stopServer
    rw [tick_quiet hq h3, h6']
    rfl
  unfold doShutdown stopServers
  rw [this]
  exact ⟨rfl, h4, h5⟩

example : (∀ st t, { sampleEnv with phase := fun _ => .entering }.signal st t = false) ∧
    (∀ i < 2, ∃ q, { sampleEnv with phase := fun _ => .entering }.opens i = .ok q) ∧
    (life { sampleEnv with phase := fun _ => .entering } [.start] (fresh true false false 2)).2.sys.log =
      [.opened 0, .opened 1, .flushed] := ⟨fun _ _ => rfl, fun i _ => ⟨i, rfl⟩, by decide⟩

/-- **C74** fails for an application with buffered endpoints or senders whose body ends without `start`: an `AttributeError` replaces whatever ended
it, and the log is not flushed. -/
theorem C74_not_started_refuted {E : Env Q} (hsig : ∀ st t, E.signal st t = false) (e : Option Exc) (tcp udp uds : Bool) (n : Nat) :
    (life E [.code e] (fresh tcp udp uds (n + 1))).1 = some .attributeError ∧
      (life E [.code e] (fresh tcp udp uds (n + 1))).2.sys.log = [] := by
  have hd : ∀ b : Bool, b = false → (b = true) = False := by intro b hb; simp [hb]
  cases e <;> cases tcp <;> cases udp <;> cases uds <;>
    simp [life, body, act, fresh, tick, hsig, doShutdown, stopServers, stopServer, Srv.stop, Sys.goDown, List.replicate_succ, shutAll,
      shutOne, shutDownCheck, Comp.fresh]

example : ∀ st t, sampleEnv.signal st t = false := fun _ _ => rfl

/-- **C74** fails if a second signal arrives while the application stops, or if saving one queue fails: the queues after it are not saved. -/
theorem C74_interrupted_refuted :
    (life { sampleEnv with signal := fun st t => st = .down ∧ t = 5 } [.start] (fresh true true true 2)).1 = some .termination ∧
    (life { sampleEnv with signal := fun st t => st = .down ∧ t = 5 } [.start] (fresh true true true 2)).2.sys.log =
      [.opened 0, .opened 1, .flushed, .saved 0] ∧
    (life { sampleEnv with save := fun q => if q = 10 then (.error .integrityError, q) else (.ok (), q) } [.start]
      (fresh true true true 2)).1 = some (.saving .integrityError) ∧
    (life { sampleEnv with save := fun q => if q = 10 then (.error .integrityError, q) else (.ok (), q) } [.start]
      (fresh true true true 2)).2.sys.log = [.opened 0, .opened 1, .flushed] := by decide

/-- **C74, servers.** When the application has stopped without an exception, no server of it is running. -/
theorem C74_servers_stopped {E : Env Q} (xs : List Action) (a : App Q) (h : (life E xs a).1 = none) (v : Srv)
    (hv : (life E xs a).2.tcp = some v ∨ (life E xs a).2.udp = some v ∨ (life E xs a).2.uds = some v) : v.running = false := by
  have one : ∀ (w : Which) (o : Option Srv) (s : Sys), (stopServer E w o s).1 = none →
      ∀ v, (stopServer E w o s).2.1 = some v → v.running = false := by
    intro w o s h v hv
    unfold stopServer at h hv
    by_cases ht : (tick E s).1 = true
    · simp [ht] at h
    · cases o with
      | none => simp [ht] at hv
      | some u =>
        simp only [ht, Bool.false_eq_true, if_false] at h hv
        unfold Srv.stop at h hv
        cases hr : u.running <;> simp only [hr, Bool.false_eq_true, if_false, if_true] at h hv
        · injection hv with hv; rw [← hv]; exact hr
        · split at hv <;> (injection hv with hv; rw [← hv])
  have all : ∀ a : App Q, (stopServers E a).1 = none → ∀ v, (stopServers E a).2.tcp = some v ∨ (stopServers E a).2.udp = some v ∨
      (stopServers E a).2.uds = some v → v.running = false := by
    intro a h v hv
    unfold stopServers at h hv
    rcases h1 : stopServer E .tcp a.tcp a.sys with ⟨e1, v1, s1⟩
    have o1 := one .tcp a.tcp a.sys
    rw [h1] at h hv o1
    cases e1 with
    | some e => simp at h
    | none =>
      simp only at h hv
      rcases h2 : stopServer E .udp a.udp s1 with ⟨e2, v2, s2⟩
      have o2 := one .udp a.udp s1
      rw [h2] at h hv o2
      cases e2 with
      | some e => simp at h
      | none =>
        simp only at h hv
        rcases h3 : stopServer E .uds a.uds s2 with ⟨e3, v3, s3⟩
        have o3 := one .uds a.uds s2
        rw [h3] at h hv o3
        simp only at h hv
        rcases hv with hv | hv | hv
        · exact o1 rfl v hv
        · exact o2 rfl v hv
        · exact o3 h v hv
  have down : ∀ a : App Q, (doShutdown E a).1 = none → (stopServers E a).1 = none ∧
      (doShutdown E a).2.tcp = (stopServers E a).2.tcp ∧ (doShutdown E a).2.udp = (stopServers E a).2.udp ∧
      (doShutdown E a).2.uds = (stopServers E a).2.uds := by
    intro a h
    unfold doShutdown at h ⊢
    rcases hs : stopServers E a with ⟨e, b⟩
    rw [hs] at h
    cases e with
    | some e => simp at h
    | none =>
      simp only at h ⊢
      rcases ha : shutAll E 0 b.comps b.sys with ⟨e', cs, s⟩
      rw [ha] at h
      cases e' with
      | some e => simp at h
      | none =>
        simp only at h ⊢
        by_cases ht : (tick E s).1 = true <;> simp [ht] at h ⊢
  unfold life at h hv
  obtain ⟨h0, h1, h2, h3⟩ := down _ h
  rw [h1, h2, h3] at hv
  exact all _ h0 v hv

example : (life sampleEnv [.start] (fresh true true true 2)).1 = none ∧
    (life sampleEnv [.start] (fresh true true true 2)).2.udp = some { running := false, server := true } := by decide

/-! ### C75 -/

theorem strike_user (us : List Bool) (fs : List Frame) (r : Root) :
    strike (us.map Frame.user ++ fs) r = if true ∈ us then .swallowed else strike fs r := by
  induction us with
  | nil => simp
  | cons u us ih => cases u <;> simp [strike, ih]

/-- **C75**, exactly when a signal ends the application: when it strikes the waiting event loop or one of the tasks that `gather` waits for, and the
application's own code, if any, lets it pass. -/
theorem C75_exact (us : List Bool) (d : Doing) : fate us d = .terminates ↔ (d = .waiting ∨ d = .ownTask) ∧ NotSwallowed us := by
  unfold fate NotSwallowed
  rw [strike_user]
  by_cases h : true ∈ us
  · simp [h]
  · simp only [h, if_false, not_false_eq_true, and_true]
    cases d <;> simp [Doing.frames, strike]

/-- **C75**, the part that holds. An application that waits is ended. Missing: everything in `C75_busy_refuted`. -/
theorem C75_waiting_partial : fate [] .waiting = .terminates := by decide

/-- **C75** fails for an application that is doing something. A signal that strikes a handler or middleware is answered to the client as an
unhandled error; one that strikes a buffered endpoint or a connection ends that task only; one that strikes a buffered sender's client puts the
message into the error queue. In each case the application goes on. -/
theorem C75_busy_refuted (us : List Bool) (h : NotSwallowed us) :
    fate us .streamRequest = .answered 999 ∧ fate us .datagramRequest = .answered 999 ∧ fate us .processing = .taskLost ∧
      fate us .sending = .toErrorQueue ∧ fate us .connectionItself = .taskLost ∧ fate us .sendingItself = .taskLost ∧
      fate us .pushing = .taskLost := by
  unfold NotSwallowed at h
  unfold fate
  simp only [strike_user, h, if_false]
  decide

example : NotSwallowed [false, false] ∧ ¬ NotSwallowed [false, true] := by unfold NotSwallowed; decide

/-- **C75**, `stop`: after it, `start` starts nothing. -/
theorem C75_stop_before_start {E : Env Q} (hsig : ∀ st t, E.signal st t = false) (tcp udp uds : Bool) (n : Nat) :
    openedIn (life E [.stop, .start] (fresh tcp udp uds n)).2.sys.log = [] := by
  have h : body E [.stop, .start] { (fresh tcp udp uds n : App Q) with context := true } =
      (none, { (fresh tcp udp uds n : App Q) with context := false, sys := { stage := .up, clock := 1, log := [.flushed] } }) := by
    simp [body, act, start, fresh, tick, hsig, Sys.say]
  unfold life
  simp only [h]
  cases n with
  | zero =>
    cases tcp <;> cases udp <;> cases uds <;>
    simp [fresh, tick, hsig, doShutdown, stopServers, stopServer, Srv.stop, Sys.goDown, shutAll, Sys.say, openedIn]
  | succ n =>
    cases tcp <;> cases udp <;> cases uds <;>
    simp [fresh, tick, hsig, doShutdown, stopServers, stopServer, Srv.stop, Sys.goDown, List.replicate_succ, shutAll,
      shutOne, shutDownCheck, Comp.fresh, openedIn]

/-- **C75** fails for `stop` on a running application (called by a handler, say): a running application does not look at what it sets. -/
theorem C75_stop_refuted (E : Env Q) (a : App Q) (b : Bool) :
    (run E { a with context := b }).1 = (run E a).1 ∧ (run E { a with context := b }).2.sys = (run E a).2.sys ∧
      (run E { a with context := b }).2.comps = (run E a).2.comps := by
  have h : startBody E { a with context := b } = ((startBody E a).1, { (startBody E a).2 with context := b }) := by
    unfold startBody
    simp only
    split
    · rfl
    · by_cases hs : (tick E (setupAll E 0 a.comps a.sys).2.2).1 = true
      · simp only [hs, if_true]
      · simp only [hs, if_false, Bool.false_eq_true]
        split <;> rfl
  unfold run
  rw [h]
  simp only
  by_cases hs : (tick E { (startBody E a).2.sys with stage := .down, clock := 0 }).1 = true
  · simp only [hs, if_true]; exact ⟨trivial, trivial, trivial⟩
  · simp only [hs, if_false, Bool.false_eq_true]; exact ⟨trivial, trivial, trivial⟩

end Verif.Life
