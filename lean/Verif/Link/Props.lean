import Verif.Link.Lemmas
import Mathlib.Tactic.Ring

/-!
# Properties C96, C97
-/

namespace Verif.Link

theorem steps_reach {cfg : Cfg} {s s' : St} {ls} (h : Reach cfg s) (hs : steps cfg s ls = some s') : Reach cfg s' := by
  induction ls generalizing s with
  | nil => rw [← Option.some.inj hs]; exact h
  | cons l ls ih =>
    simp only [steps] at hs
    cases hl : step cfg s l with
    | none => rw [hl] at hs; cases hs
    | some s1 => rw [hl] at hs; exact ih (.step h hl) hs

theorem steps_append {cfg : Cfg} {s s1 s2 : St} {l1 l2} (h1 : steps cfg s l1 = some s1) (h2 : steps cfg s1 l2 = some s2) :
    steps cfg s (l1 ++ l2) = some s2 := by
  induction l1 generalizing s with
  | nil => rw [← Option.some.inj h1] at h2; exact h2
  | cons l l1 ih =>
    simp only [steps] at h1
    simp only [List.cons_append, steps]
    cases hl : step cfg s l with
    | none => rw [hl] at h1; cases h1
    | some s' => rw [hl] at h1; exact ih h1

/-! ### examples -/

/-- Three attempts, a heartbeat a minute, dropped writers close their connections (Python 3.11.10). -/
def exCfg : Cfg := ⟨3, 60, true⟩

/-- The same with a version of Python that leaves them open. -/
def exOld : Cfg := ⟨3, 60, false⟩

/-- A client made at 1000. -/
def ex0 : St := new 1000

theorem ex0_reach (cfg : Cfg) : Reach cfg ex0 := .new _ (by decide)

/-- The first message. Task 0 is the heartbeat task, task 1 sends: it asks for a connection; the heartbeat task, due because nothing has ever been
sent, asks for another; task 1 gets its connection and writes; the heartbeat task gets its own, which replaces the first. -/
def exFirst : List Label := [.send, .wake 0, .opened 1, .opened 0]

/-- With the first message answered: task 1 finds the end of its connection, which the client itself has closed, connects again, and repeats. -/
def exAnswered : List Label := exFirst ++ [.read 1 .eof, .grant, .read 0 (.line true), .opened 1, .resume 1, .read 1 (.line true)]

def exSettled : St := (steps exCfg ex0 exAnswered).get (by decide +kernel)

theorem exSettled_reach : Reach exCfg exSettled := steps_reach (ex0_reach _) (Option.some_get _).symm

theorem forall_tasks {s : St} {P : Task → Prop} (h : ∀ x ∈ s.tasks, P x) (t : Nat) (x : Task) (hx : s.tasks[t]? = some x) : P x :=
  h x (List.mem_of_getElem? hx)

theorem exSettled_settled : Settled exSettled 2 := by
  refine ⟨by decide +kernel, by decide +kernel, by decide +kernel, fun t x hx => ?_⟩
  have he : exSettled.tasks = [⟨true, .asleep 1060⟩, ⟨false, .over .value⟩] := by decide +kernel
  have := List.mem_of_getElem? hx
  rw [he] at this
  simp only [List.mem_cons, List.not_mem_nil, or_false] at this
  rcases this with rfl | rfl <;> exact trivial

/-! ### C96 -/

/-- **C96.** Whatever happens: a persistent client never has more than one connection open, if dropped writers close theirs. -/
theorem C96_one_connection {cfg : Cfg} (hd : cfg.drops = true) {s} (h : Reach cfg s) : openCount s ≤ 1 := by
  have hi := reach_inv h
  have hone : ∀ (i : Nat) (x : Conn), s.conns[i]? = some x → x.mine = true → s.cur = some i := hi.one hd
  unfold openCount
  generalize hc : s.cur = cur at hone
  generalize s.conns = l at hone
  clear hc hi h
  induction l generalizing cur with
  | nil => simp
  | cons a l ih =>
    by_cases ha : a.mine = true
    · have h0 := hone 0 a rfl ha
      have hnil : l.filter (·.mine) = [] := by
        rw [List.filter_eq_nil_iff]
        intro x hx hm
        obtain ⟨i, hi⟩ := List.getElem?_of_mem hx
        have := hone (i + 1) x (by simpa using hi) hm
        rw [h0] at this
        cases this
      simp [ha, hnil]
    · simp only [List.filter_cons, ha]
      cases cur with
      | none =>
        refine ih none (fun i x hx hm => ?_)
        have := hone (i + 1) x (by simpa using hx) hm
        cases this
      | some c =>
        refine ih (some (c - 1)) (fun i x hx hm => ?_)
        have := hone (i + 1) x (by simpa using hx) hm
        simp only [Option.some.injEq] at this ⊢
        omega

example : ∃ s, Reach exCfg s ∧ openCount s = 1 ∧ s.conns.length = 3 := ⟨exSettled, exSettled_reach, by decide +kernel, by decide +kernel⟩

/-- **C96**, no connection before the first message. -/
theorem C96_first_message (cfg : Cfg) (now : ℚ) (ls : List Label) (h : .send ∉ ls) {s} (hs : steps cfg (new now) ls = some s) : s.conns = [] := by
  have key : ∀ (ls : List Label) (s0 : St), .send ∉ ls → s0.conns = [] → s0.tasks = [] → s0.queue = [] → s0.cur = none → steps cfg s0 ls = some s →
      s.conns = [] := by
    intro ls
    induction ls with
    | nil => intro s0 _ h1 _ _ _ hs; rw [← Option.some.inj hs]; exact h1
    | cons l ls ih =>
      intro s0 hn h1 h2 h3 h4 hs
      simp only [steps] at hs
      have hn' : .send ∉ ls := fun hm => hn (by simp [hm])
      cases l with
      | tick d =>
        simp only [step] at hs
        split at hs
        · cases hs
        · rename_i heq
          split at heq
          · rw [← Option.some.inj heq] at hs; exact ih { s0 with now := s0.now + d } hn' h1 h2 h3 h4 hs
          · cases heq
      | send => exact absurd List.mem_cons_self hn
      | wake t => simp [step, h2] at hs
      | resume t => simp [step, h2] at hs
      | opened t => simp [step, h2] at hs
      | failed t f => simp [step, h2] at hs
      | grant => simp [step, h3] at hs
      | read t r => simp [step, h2] at hs
      | cancel t => simp [step, h2] at hs
      | drop c => simp [step, h1] at hs
      | close => simp [step, h4] at hs
  exact key ls (new now) h rfl rfl rfl rfl hs

/-- **C96**, no message is written more often than there are attempts. -/
theorem C96_attempts {cfg : Cfg} {s} (h : Reach cfg s) {t} (ht : Sends s t) : (writes s t).length ≤ cfg.max.toNat := by
  obtain ⟨pc, hx⟩ := ht
  have := (reach_inv h).good t pc hx
  have hw : (writes s t).length = wrote s t := by simp [writes, wrote]
  rw [hw]
  cases pc <;> simp only [Bound] at this <;> omega

example : Sends exSettled 1 ∧ writes exSettled 1 = [2, 0] := ⟨⟨.over .value, by decide +kernel⟩, by decide +kernel⟩

/-- **C96**, part that holds: once a client has settled on a connection, then as long as nobody closes it, no read times out and heartbeats are
acknowledged, it keeps that connection and opens no other, and every message is written exactly once, to that connection. -/
theorem C96_kept_partial {cfg : Cfg} {s s' : St} {c : Nat} (h : Reach cfg s) (hc : Settled s c) (hr : CleanRun cfg s s') :
    Settled s' c ∧ s'.conns = s.conns ∧ (∀ t, Sends s t → writes s' t = writes s t) ∧
    ∀ t, s.tasks.length ≤ t → Sends s' t → 0 < cfg.max → writes s' t = [c] :=
  have k := kept_run (reach_inv h) hc hr
  ⟨k.settled, k.conns, k.old, k.fresh⟩

/-- Two messages sent at once over the settled connection. -/
example : ∃ s', CleanRun exCfg exSettled s' ∧ s'.tasks.length = 4 ∧ writes s' 2 = [2] ∧ writes s' 3 = [2] :=
  ⟨(steps exCfg exSettled [.send, .send]).get (by decide +kernel),
    .cons (l := .send) trivial rfl (.cons (l := .send) trivial rfl (by
      have : (steps exCfg exSettled [.send, .send]).get (by decide +kernel) = St.send exCfg (St.send exCfg exSettled) := rfl
      rw [this]; exact .nil _)), by decide +kernel, by decide +kernel, by decide +kernel⟩

/-- **C96 is false for the first message.** Nobody closes a connection, no attempt to connect fails, nothing times out, every line is answered; yet
to send one message the client opens three connections and writes the message twice: the heartbeat task and the task that sends both find the
client unconnected, the second connection replaces the first, and so closes it under the task that waits for its answer. With a version of Python that
does not close it, two connections stay open. -/
theorem C96_first_refuted :
    (∃ s, steps exCfg ex0 exAnswered = some s ∧ s.tasks[1]? = some ⟨false, .over .value⟩ ∧ writes s 1 = [2, 0] ∧ s.conns.length = 3) ∧
    (∀ l ∈ exAnswered, ∀ s, Clean s l) ∧
    ∃ s, steps exOld ex0 (exFirst ++ [.read 1 (.line true), .grant, .read 0 (.line true)]) = some s ∧
      s.tasks[1]? = some ⟨false, .over .value⟩ ∧ writes s 1 = [0] ∧ openCount s = 2 := by
  refine ⟨⟨exSettled, (Option.some_get _).symm, by decide +kernel, by decide +kernel, by decide +kernel⟩, ?_,
    ⟨(steps exOld ex0 (exFirst ++ [.read 1 (.line true), .grant, .read 0 (.line true)])).get (by decide +kernel), (Option.some_get _).symm,
      by decide +kernel, by decide +kernel, by decide +kernel⟩⟩
  intro l hl s
  simp only [exAnswered, exFirst, List.cons_append, List.nil_append, List.mem_cons, List.not_mem_nil, or_false] at hl
  rcases hl with rfl | rfl | rfl | rfl | rfl | rfl | rfl | rfl | rfl | rfl <;> exact trivial

/-! ### C97 -/

/-- **C97**, while the client is in use it sends no heartbeats: a heartbeat task that wakes up no later than the heartbeat period after the last
reply goes back to sleep for that period. -/
theorem C97_in_use {cfg : Cfg} {s s' : St} {t : Nat} (h : s.now - cfg.period ≤ s.lastSend) (hs : step cfg s (.wake t) = some s') :
    s'.sent = s.sent ∧ s'.conns = s.conns ∧ s'.tasks[t]? = some ⟨true, .asleep (s.now + cfg.period)⟩ := by
  have key : ∀ pc, s.tasks[t]? = some ⟨true, pc⟩ → (s.beat cfg t).sent = s.sent ∧ (s.beat cfg t).conns = s.conns ∧
      (s.beat cfg t).tasks[t]? = some ⟨true, .asleep (s.now + cfg.period)⟩ := by
    intro pc hx
    unfold St.beat
    rw [if_neg (not_lt.mpr h)]
    exact ⟨rfl, rfl, goto_self hx⟩
  simp only [step] at hs
  split at hs
  · rename_i hx; rw [← Option.some.inj hs]; exact key _ hx
  · rename_i u hx
    split at hs
    · rw [← Option.some.inj hs]; exact key _ hx
    · cases hs
  · cases hs

example : (exSettled.now - exCfg.period ≤ exSettled.lastSend) ∧ (steps exCfg exSettled [.tick 60, .wake 0]).isSome := by decide +kernel

/-- **C97**, the heartbeat task ends only if a read times out or breaks, connecting fails other than by refusal, or it is cancelled. -/
theorem C97_survives {cfg : Cfg} {s s' : St} {l} {t : Nat} {pc e} (h : Reach cfg s) (hs : step cfg s l = some s')
    (hx : s.tasks[t]? = some ⟨true, pc⟩) (hp : ∀ e, pc ≠ .over e) (hx' : s'.tasks[t]? = some ⟨true, .over e⟩) :
    l = .read t .timeout ∨ l = .read t .broken ∨ (∃ f, f ≠ .refused ∧ l = .failed t f) ∨ l = .cancel t := by
  have hi := reach_inv h
  by_cases hl : about s l = some t
  · cases l with
    | tick d => cases hl
    | send => cases hl
    | drop c => cases hl
    | close => cases hl
    | cancel t' => injection hl with hl; subst hl; exact .inr (.inr (.inr rfl))
    | wake t' =>
      injection hl with hl; subst hl
      exfalso
      obtain ⟨pc', k1, k2⟩ := beat_alive (cfg := cfg) hi.conn hx
      simp only [step, hx] at hs
      split at hs
      · rw [← Option.some.inj hs, k1] at hx'; injection hx' with hx'; injection hx' with _ hx'; exact k2 e hx'
      · split at hs
        · rw [← Option.some.inj hs, k1] at hx'; injection hx' with hx'; injection hx' with _ hx'; exact k2 e hx'
        · cases hs
      · cases hs
    | resume t' =>
      injection hl with hl; subst hl
      simp only [step, hx] at hs
      cases hs
    | opened t' =>
      injection hl with hl; subst hl
      simp only [step, hx] at hs
      split at hs
      · rename_i b rc heq
        injection heq with heq; injection heq with hb hpc
        obtain ⟨pc', k1, k2⟩ := writeRead_alive (s := s.opened cfg) (t := t') (rc := rc) (b := true) (pc := pc) (by simp [St.opened]) hx
        rw [← Option.some.inj hs, k1] at hx'
        injection hx' with hx'; injection hx' with _ hx'
        exact absurd hx' (k2 e)
      · rename_i heq; injection heq with heq; injection heq with heq _; cases heq
      · cases hs
    | failed t' f =>
      injection hl with hl; subst hl
      refine .inr (.inr (.inl ⟨f, ?_, rfl⟩))
      rintro rfl
      simp only [step, hx] at hs
      split at hs
      · rename_i b rc heq
        injection heq with heq; injection heq with hb hpc
        subst hb
        simp only [St.openFails, if_true] at hs
        rw [← Option.some.inj hs, goto_self hx] at hx'
        injection hx' with hx'; injection hx' with _ hx'; cases hx'
      · rename_i heq; injection heq with heq; injection heq with heq _; cases heq
      · cases hs
    | grant =>
      exfalso
      simp only [step] at hs
      split at hs
      · rename_i t' q c _ hq _
        split at hs
        · rename_i b rc hx2
          have : t' = t := by simp only [about, hq, List.head?_cons, Option.some.injEq] at hl; exact hl
          subst this
          rw [← Option.some.inj hs, goto_self (s := { s with lock := some t', queue := q }) hx] at hx'
          injection hx' with hx'; injection hx' with _ hx'; cases hx'
        · cases hs
      · cases hs
    | read t' r =>
      injection hl with hl; subst hl
      simp only [step, hx] at hs
      split at hs
      · rename_i b rc c heq
        injection heq with heq; injection heq with hb hpc
        subst hb
        split at hs
        · rw [← Option.some.inj hs] at hx'
          cases r with
          | line ack =>
            simp only [St.readEnds, if_true] at hx'
            split at hx'
            · rw [goto_self (s := { s with lock := none, lastSend := s.now }) hx] at hx'
              injection hx' with hx'; injection hx' with _ hx'; cases hx'
            · rw [goto_self (s := { s with lock := none, connected := false }) hx] at hx'
              injection hx' with hx'; injection hx' with _ hx'; cases hx'
          | eof =>
            simp only [St.readEnds, if_true] at hx'
            rw [goto_self (s := { s with lock := none, connected := false }) hx] at hx'
            injection hx' with hx'; injection hx' with _ hx'; cases hx'
          | timeout => exact .inl rfl
          | broken => exact .inr (.inl rfl)
        · cases hs
      · cases hs
  · rw [frame hs hl (lt_length hx), hx] at hx'
    injection hx' with hx'; injection hx' with _ hx'
    exact absurd hx' (hp e)

/-- The heartbeat task has written a heartbeat. -/
def exBeat : St := (steps exCfg exSettled [.tick 61, .wake 0]).get (by decide +kernel)

/-- The heartbeat task meets a time-out. -/
example : ∃ s s', Reach exCfg s ∧ s.tasks[0]? = some ⟨true, .reading 0 2⟩ ∧ step exCfg s (.read 0 .timeout) = some s' ∧
    s'.tasks[0]? = some ⟨true, .over .os⟩ :=
  ⟨exBeat, (step exCfg exBeat (.read 0 .timeout)).get (by decide +kernel), steps_reach exSettled_reach (Option.some_get _).symm, by decide +kernel,
    (Option.some_get _).symm, by decide +kernel⟩

/-- **C97**, the next message makes sure that a heartbeat task runs. -/
theorem C97_restarted (cfg : Cfg) (s : St) : ∃ h x, (s.send cfg).heart = some h ∧ (s.send cfg).tasks[h]? = some x ∧ ∀ e, x.pc ≠ .over e := by
  unfold St.send
  extract_lets s1 s2 s3
  have key : ∃ h x, s2.heart = some h ∧ s2.tasks[h]? = some x ∧ ∀ e, x.pc ≠ .over e := by
    simp only [s2]
    cases hr : s1.heartRuns with
    | false => exact ⟨_, ⟨true, .ready⟩, rfl, List.getElem?_concat_length .., by simp⟩
    | true =>
      rw [if_pos rfl]
      unfold St.heartRuns at hr
      split at hr
      · cases hr
      · rename_i h hh
        split at hr
        · cases hr
        · rename_i x hno hx
          exact ⟨h, x, hh, hx, fun e he => hno x.beat e (by rw [← he])⟩
        · cases hr
  obtain ⟨h, x, k1, k2, k3⟩ := key
  have hlt := lt_length k2
  have hloc := loop_local cfg s3 s2.tasks.length 0
  refine ⟨h, x, hloc.heart.trans k1, ?_, k3⟩
  rw [hloc.tasks h (by omega)]
  show (s2.tasks ++ _)[h]? = _
  rw [List.getElem?_append_left hlt, k2]

/-! ### regaining a connection -/

theorem wake_due {cfg : Cfg} {s : St} {h u} (hh : HeartAsleep s h u) (hu : u ≤ s.now) : step cfg s (.wake h) = some (s.beat cfg h) := by
  simp only [step, hh.2, hu, if_true]

theorem beat_down {cfg : Cfg} {s : St} {h} (hc : s.connected = false) (hl : s.lastSend < s.now - cfg.period) : s.beat cfg h = s.goto h (.opening 0) := by
  simp [St.beat, hl, St.exchange, hc]

/-- One refused attempt of a heartbeat task that finds the client unconnected. -/
theorem refused_round {cfg : Cfg} {s : St} {h u} (hp : 0 ≤ cfg.period) (hh : HeartAsleep s h u) (hu : u ≤ s.now) (hc : s.connected = false)
    (hl : s.lastSend < s.now - cfg.period) :
    ∃ s', steps cfg s [.wake h, .failed h .refused, .tick cfg.period] = some s' ∧ s'.now = s.now + cfg.period ∧ HeartAsleep s' h s'.now ∧
      s'.connected = false ∧ s'.lastSend = s.lastSend ∧ s'.conns = s.conns ∧ s'.cur = s.cur := by
  simp only [steps, wake_due hh hu, beat_down hc hl]
  have h1 := goto_self (s := s) (t := h) (pc := .opening 0) hh.2
  simp only [step, h1, St.openFails, if_true, hp]
  refine ⟨_, rfl, rfl, ⟨hh.1, ?_⟩, hc, rfl, rfl, rfl⟩
  exact goto_self (s := s.goto h (.opening 0)) (t := h) (pc := .asleep (s.now + cfg.period)) h1

/-- A heartbeat task finds the client unconnected and connects. -/
theorem connect_round {cfg : Cfg} {s : St} {h u} (hh : HeartAsleep s h u) (hu : u ≤ s.now) (hc : s.connected = false)
    (hl : s.lastSend < s.now - cfg.period) :
    ∃ s', steps cfg s [.wake h, .opened h] = some s' ∧ s'.now = s.now ∧ s'.connected = true ∧ s'.cur = some s.conns.length ∧
      s'.conns[s.conns.length]? = some ⟨true, true⟩ := by
  simp only [steps, wake_due hh hu, beat_down hc hl]
  have h1 := goto_self (s := s) (t := h) (pc := .opening 0) hh.2
  simp only [step, h1]
  have hloc := writeRead_local ((s.goto h (.opening 0)).opened cfg) h 0
  refine ⟨_, rfl, hloc.now, hloc.connected, hloc.cur, ?_⟩
  rw [hloc.conns]
  simp only [St.opened, goto_conns]
  split
  · split
    · rw [List.getElem?_append_right (by simp [shut])]; simp [shut]
    · simp
  · simp

/-- A heartbeat task finds out that the connection is gone. -/
theorem notice_round {cfg : Cfg} {s : St} {h u c x} (hh : HeartAsleep s h u) (hu : u ≤ s.now) (hc : s.connected = true) (hcur : s.cur = some c)
    (hx : s.conns[c]? = some x) (hgone : (x.mine && x.peer) = false) (hi : s.lock = none ∧ s.queue = []) (hl : s.lastSend < s.now - cfg.period) :
    ∃ s', steps cfg s [.wake h, .read h .eof] = some s' ∧ s'.now = s.now ∧ HeartAsleep s' h (s.now + cfg.period) ∧ s'.connected = false ∧
      s'.lastSend = s.lastSend ∧ s'.conns = s.conns := by
  have hb : s.beat cfg h = { s with sent := (c, h) :: s.sent, lock := some h }.goto h (.reading 0 c) := by
    simp [St.beat, hl, St.exchange, hc, St.writeRead, hcur, hi.1, hi.2]
  simp only [steps, wake_due hh hu, hb]
  have h1 := goto_self (s := { s with sent := (c, h) :: s.sent, lock := some h }) (t := h) (pc := .reading 0 c) hh.2
  simp only [step, h1, St.possible, goto_conns, hx, hgone, Bool.not_false, if_true, St.readEnds]
  exact ⟨_, rfl, rfl, ⟨hh.1, goto_self (s := { ({ s with sent := (c, h) :: s.sent, lock := some h }.goto h (.reading 0 c)) with
    lock := none, connected := false }) h1⟩, rfl, rfl, rfl⟩

theorem tick_asleep {cfg : Cfg} {s : St} {d} (hd : 0 ≤ d) : step cfg s (.tick d) = some { s with now := s.now + d } := by simp [step, hd]

/-- **C97**, regular attempts: as long as connecting is refused, the heartbeat task of an unconnected client tries again once in every heartbeat
period; `n` refusals take `n` periods, and the next attempt may succeed. -/
theorem C97_regular_partial {cfg : Cfg} (hp : 0 ≤ cfg.period) {s : St} {h u} (hh : HeartAsleep s h u) (hu : u ≤ s.now) (hc : s.connected = false)
    (hl : s.lastSend < s.now - cfg.period) (n : Nat) :
    ∃ s', steps cfg s ((List.replicate n [.wake h, .failed h .refused, .tick cfg.period]).flatten ++ [.wake h, .opened h]) = some s' ∧
      s'.now = s.now + n * cfg.period ∧ s'.connected = true ∧ s'.cur = some s.conns.length ∧ s'.conns[s.conns.length]? = some ⟨true, true⟩ := by
  induction n generalizing s u with
  | zero =>
    obtain ⟨s', k1, k2, k3⟩ := connect_round hh hu hc hl
    exact ⟨s', k1, by rw [k2]; simp, k3⟩
  | succ n ih =>
    obtain ⟨s1, k1, k2, k3, k4, k5, k6, _⟩ := refused_round hp hh hu hc hl
    obtain ⟨s2, m1, m2, m3⟩ := ih k3 (le_refl _) k4 (by rw [k5, k2]; linarith)
    refine ⟨s2, ?_, by rw [m2, k2]; push_cast; ring, by rw [← k6]; exact m3⟩
    rw [List.replicate_succ, List.flatten_cons, List.append_assoc]
    exact steps_append k1 m1

/-- The server has closed the settled connection, the heartbeat task has noticed, and a period has passed. -/
example : ∃ s, Reach exCfg s ∧ HeartAsleep s 0 1121 ∧ s.now = 1121 ∧ s.connected = false ∧ s.lastSend < s.now - exCfg.period :=
  ⟨(steps exCfg exSettled [.tick 61, .drop 2, .wake 0, .read 0 .eof, .tick 60]).get (by decide +kernel),
    steps_reach exSettled_reach (Option.some_get _).symm, ⟨by decide +kernel, by decide +kernel⟩, by decide +kernel, by decide +kernel, by decide +kernel⟩

/-- **C97**, part that holds: a client that nobody uses, whose connection has been closed, has a new one within three heartbeat periods, if its
heartbeat task is alive, the end of the old connection can be seen, and the server accepts the new one. -/
theorem C97_regained_partial {cfg : Cfg} (hp : 0 < cfg.period) {s : St} {h u c x} (hr : Reach cfg s) (hh : HeartAsleep s h u) (hi : Idle s h)
    (hcur : s.cur = some c) (hx : s.conns[c]? = some x) (hgone : (x.mine && x.peer) = false) :
    ∃ ls s', steps cfg s ls = some s' ∧ (∀ l ∈ ls, (∃ d, l = .tick d) ∨ l = .wake h ∨ l = .read h .eof ∨ l = .opened h) ∧
      s'.now ≤ s.now + 3 * cfg.period ∧ s'.connected = true ∧ s'.cur = some s.conns.length ∧ s'.conns[s.conns.length]? = some ⟨true, true⟩ := by
  have inv := reach_inv hr
  have hu : u ≤ s.now + cfg.period := inv.nap h _ u hh.2 rfl
  have hlast := inv.last
  -- a state in which the heartbeat is due, at most two periods from now
  have due : ∃ (ls : List Label) (s1 : St) (u1 : ℚ), steps cfg s ls = some s1 ∧ (∀ l ∈ ls, (∃ d, l = .tick d) ∨ l = .wake h) ∧
      s1.now ≤ s.now + 2 * cfg.period ∧
      HeartAsleep s1 h u1 ∧ u1 ≤ s1.now ∧ s1.lastSend < s1.now - cfg.period ∧ s1.connected = s.connected ∧ s1.cur = s.cur ∧ s1.conns = s.conns ∧
      s1.lock = s.lock ∧ s1.queue = s.queue := by
    have t1 := tick_asleep (cfg := cfg) (s := s) (le_of_lt hp)
    by_cases hd : s.lastSend < s.now
    · refine ⟨[.tick cfg.period], { s with now := s.now + cfg.period }, u, by simp only [steps, t1], ?_, ?_, hh, hu, ?_, rfl, rfl, rfl, rfl, rfl⟩
      · intro l hl; simp only [List.mem_singleton] at hl; exact .inl ⟨_, hl⟩
      · dsimp only; linarith
      · dsimp only; linarith
    · have hw : step cfg { s with now := s.now + cfg.period } (.wake h) =
          some ({ s with now := s.now + cfg.period }.goto h (.asleep (s.now + cfg.period + cfg.period))) := by
        rw [wake_due (s := { s with now := s.now + cfg.period }) (h := h) (u := u) hh hu]
        have hn : ¬ s.lastSend < s.now + cfg.period - cfg.period := by linarith
        unfold St.beat
        rw [if_neg (by exact hn)]
      have t2 := tick_asleep (cfg := cfg) (s := { s with now := s.now + cfg.period }.goto h (.asleep (s.now + cfg.period + cfg.period))) (le_of_lt hp)
      refine ⟨[.tick cfg.period, .wake h, .tick cfg.period],
        { ({ s with now := s.now + cfg.period }.goto h (.asleep (s.now + cfg.period + cfg.period))) with now := s.now + cfg.period + cfg.period },
        s.now + cfg.period + cfg.period, by simp only [steps, t1, hw, t2]; rfl, ?_, ?_,
        ⟨hh.1, goto_self (s := { s with now := s.now + cfg.period }) hh.2⟩, le_refl _, ?_, rfl, rfl, rfl, rfl, rfl⟩
      · intro l hl
        simp only [List.mem_cons, List.not_mem_nil, or_false] at hl
        rcases hl with rfl | rfl | rfl
        · exact .inl ⟨_, rfl⟩
        · exact .inr rfl
        · exact .inl ⟨_, rfl⟩
      · show s.now + cfg.period + cfg.period ≤ _; linarith
      · show s.lastSend < s.now + cfg.period + cfg.period - cfg.period; linarith
  obtain ⟨ls, s1, u1, a1, a2, a3, a4, a5, a6, a7, a8, a9, a10, a11⟩ := due
  cases hc : s.connected with
  | false =>
    obtain ⟨s2, b1, b2, b3, b4, b5⟩ := connect_round (cfg := cfg) a4 a5 (a7.trans hc) a6
    rw [a9] at b4 b5
    refine ⟨ls ++ [.wake h, .opened h], s2, steps_append a1 b1, ?_, by rw [b2]; linarith, b3, b4, b5⟩
    intro l hl
    simp only [List.mem_append, List.mem_cons, List.not_mem_nil, or_false] at hl
    rcases hl with hl | rfl | rfl
    · rcases a2 l hl with h' | h'
      · exact .inl h'
      · exact .inr (.inl h')
    · exact .inr (.inl rfl)
    · exact .inr (.inr (.inr rfl))
  | true =>
    obtain ⟨s2, b1, b2, b3, b4, b5, b6⟩ := notice_round (cfg := cfg) a4 a5 (a7.trans hc) (a8.trans hcur) (by rw [a9]; exact hx) hgone
      ⟨a10.trans hi.1, a11.trans hi.2.1⟩ a6
    have t3 := tick_asleep (cfg := cfg) (s := s2) (le_of_lt hp)
    obtain ⟨s3, c1, c2, c3, c4, c5⟩ := connect_round (cfg := cfg) (s := { s2 with now := s2.now + cfg.period }) (h := h) (u := s1.now + cfg.period)
      b3 (by dsimp only; rw [b2]) b4 (by dsimp only; rw [b5, b2]; linarith)
    dsimp only at c2 c4 c5
    rw [b6, a9] at c4 c5
    have t3' : steps cfg s2 [.tick cfg.period] = some { s2 with now := s2.now + cfg.period } := by simp only [steps, t3]
    refine ⟨ls ++ ([.wake h, .read h .eof] ++ ([.tick cfg.period] ++ [.wake h, .opened h])), s3,
      steps_append a1 (steps_append b1 (steps_append t3' c1)), ?_, by rw [c2, b2]; linarith, c3, c4, c5⟩
    intro l hl
    simp only [List.mem_append, List.mem_cons, List.not_mem_nil, or_false] at hl
    rcases hl with hl | (rfl | rfl) | rfl | rfl | rfl
    · rcases a2 l hl with h' | h'
      · exact .inl h'
      · exact .inr (.inl h')
    · exact .inr (.inl rfl)
    · exact .inr (.inr (.inl rfl))
    · exact .inl ⟨_, rfl⟩
    · exact .inr (.inl rfl)
    · exact .inr (.inr (.inr rfl))

/-- The server closes the settled connection. -/
example : ∃ s, Reach exCfg s ∧ HeartAsleep s 0 1060 ∧ Idle s 0 ∧ s.cur = some 2 ∧ s.conns[2]? = some ⟨true, false⟩ := by
  have he : ((steps exCfg exSettled [.drop 2]).get (by decide +kernel)).tasks = [⟨true, .asleep 1060⟩, ⟨false, .over .value⟩] := by decide +kernel
  refine ⟨(steps exCfg exSettled [.drop 2]).get (by decide +kernel), steps_reach exSettled_reach (Option.some_get _).symm,
    ⟨by decide +kernel, by decide +kernel⟩, ⟨by decide +kernel, by decide +kernel, fun t x hx hne => ?_⟩, by decide +kernel, by decide +kernel⟩
  rw [he] at hx
  match t, hx, hne with
  | 1, hx, _ => exact ⟨.value, by rw [← Option.some.inj hx]⟩
  | 0, _, hne => exact absurd rfl hne

/-- **C97 is false in general**: the server's machine disappears (the connection does not end, replies just do not come); the next heartbeat times out
and ends the heartbeat task. From then on nothing is tried, however long one waits, until the next message. -/
theorem C97_regain_refuted :
    ∃ s, Reach exCfg s ∧ s.now = 1066 ∧ s.cur = some 2 ∧ s.conns[2]? = some ⟨true, false⟩ ∧
      ∀ ls, .send ∉ ls → ∀ s', steps exCfg s ls = some s' → s'.conns.length = 3 ∧ s'.sent = s.sent := by
  refine ⟨(steps exCfg exSettled [.tick 61, .drop 2, .wake 0, .tick 5, .read 0 .timeout]).get (by decide +kernel),
    steps_reach exSettled_reach (Option.some_get _).symm, by decide +kernel, by decide +kernel, by decide +kernel, ?_⟩
  generalize hs0 : (steps exCfg exSettled [.tick 61, .drop 2, .wake 0, .tick 5, .read 0 .timeout]).get (by decide +kernel) = s0
  have h1 : s0.conns.length = 3 := by rw [← hs0]; decide +kernel
  have h2 : s0.tasks = [⟨true, .over .os⟩, ⟨false, .over .value⟩] := by rw [← hs0]; decide +kernel
  have h3 : s0.queue = [] := by rw [← hs0]; decide +kernel
  have key : ∀ (ls : List Label) (s1 : St), .send ∉ ls → s1.conns.length = 3 → s1.tasks = [⟨true, .over .os⟩, ⟨false, .over .value⟩] → s1.queue = [] →
      s1.sent = s0.sent → ∀ s', steps exCfg s1 ls = some s' → s'.conns.length = 3 ∧ s'.sent = s0.sent := by
    intro ls
    induction ls with
    | nil => intro s1 _ a1 _ _ a4 s' hs; rw [← Option.some.inj hs]; exact ⟨a1, a4⟩
    | cons l ls ih =>
      intro s1 hn a1 a2 a3 a4 s' hs
      have hn' : .send ∉ ls := fun hm => hn (by simp [hm])
      simp only [steps] at hs
      cases hl : step exCfg s1 l with
      | none => rw [hl] at hs; cases hs
      | some s2 =>
        rw [hl] at hs
        refine ih s2 hn' ?_ ?_ ?_ ?_ s' hs <;> (clear hs ih)
        all_goals
          have ht : ∀ t : Nat, s1.tasks[t]? = none ∨ s1.tasks[t]? = some ⟨true, .over .os⟩ ∨ s1.tasks[t]? = some ⟨false, .over .value⟩ := by
            intro t; rw [a2]
            match t with
            | 0 => exact .inr (.inl rfl)
            | 1 => exact .inr (.inr rfl)
            | t + 2 => exact .inl rfl
          cases l with
          | tick d =>
            simp only [step] at hl
            split at hl
            · rw [← Option.some.inj hl]; assumption
            · cases hl
          | send => exact absurd List.mem_cons_self hn
          | grant => simp [step, a3] at hl
          | drop c =>
            simp only [step] at hl
            split at hl
            · rw [← Option.some.inj hl]; first | assumption | simpa using a1
            · cases hl
          | close =>
            simp only [step] at hl
            split at hl
            · rw [← Option.some.inj hl]; first | assumption | simpa [shut] using a1
            · cases hl
          | wake t => rcases ht t with h | h | h <;> simp [step, h] at hl
          | resume t => rcases ht t with h | h | h <;> simp [step, h] at hl
          | opened t => rcases ht t with h | h | h <;> simp [step, h] at hl
          | failed t f => rcases ht t with h | h | h <;> simp [step, h] at hl
          | read t r => rcases ht t with h | h | h <;> simp [step, h] at hl
          | cancel t => rcases ht t with h | h | h <;> simp [step, h] at hl
  intro ls hn s' hs
  exact key ls s0 hn h1 h2 h3 rfl s' hs

end Verif.Link
