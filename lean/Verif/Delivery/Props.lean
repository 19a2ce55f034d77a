import Verif.Delivery.Once
import Verif.Buffered.Props

/-!
# C76, C77: a buffered sender and a buffered endpoint, joined by a client and a network
-/

set_option linter.unusedSectionVars false

namespace Verif.Delivery

open Verif.Py Verif.Buffered Verif.Client Verif.Queue Verif.Queue.Spec Verif.Pending

variable {K D M S M' R' S' : Type} [DecidableEq K]

theorem NReach.mono {X : Setting K D M S M' R' S'} {P Q : Label K D M' R' → Prop} (hPQ : ∀ l, P l → Q l) {n} (h : NReach X P n) : NReach X Q n := by
  induction h with
  | start hq hq' => exact .start hq hq'
  | step _ hp hs ih => exact .step ih (hPQ _ hp) hs

theorem steps_reach {X : Setting K D M S M' R' S'} {P : Label K D M' R' → Prop} {n n'} (h : NReach X P n) {ls : List (Label K D M' R')}
    (hP : ∀ l ∈ ls, P l) (hs : steps X n ls = some n') : NReach X P n' := by
  induction ls generalizing n with
  | nil => simp only [steps, Option.some.injEq] at hs; subst hs; exact h
  | cons l ls ih =>
    simp only [steps] at hs
    split at hs
    · cases hs
    · rename_i m hm
      exact ih (.step h (hP l (by simp)) hm) (fun l' hl' => hP l' (by simp [hl'])) hs

theorem inFlight_mem {l : List (Task K D M)} {t : Nat} {e} (h : l[t]? = some (.inFlight e)) : e ∈ inFlight l := by
  induction l generalizing t with
  | nil => simp at h
  | cons x l ih =>
    cases t with
    | zero => simp only [List.getElem?_cons_zero, Option.some.injEq] at h; subst h; simp [inFlight]
    | succ t =>
      have := ih (t := t) (by simpa using h)
      cases x <;> simp only [inFlight, List.mem_cons] <;> first | exact this | exact .inr this

theorem known_acked {log : List (Ev K D M' R')} {k d m} (h : .acked k d m ∈ log) : k ∈ known log := by
  induction log with
  | nil => cases h
  | cons x l ih =>
    rcases List.mem_cons.mp h with rfl | h
    · simp [known]
    · have := ih h
      cases x <;> simp only [known, List.mem_cons] <;> first | exact this | exact .inr this

/-! ### examples -/

/-- The sender of the examples: three attempts per message; payloads that contain a zero do not validate. -/
def exSnd : Buffered.Cfg Nat (List Nat) Unit String (PEntry Nat (List Nat) Unit ⊕ EEntry Nat (List Nat) Unit String) where
  codecs := ⟨⟨Sum.inl, fun s => s.getLeft?⟩, ⟨Sum.inr, fun s => s.getRight?⟩⟩
  maxRetries := 3
  build := fun d => if 0 ∈ d then none else some d
  keep := id
  noMeta := ()
  reason := "Max retries reached."

theorem exSnd_lawful : exSnd.codecs.Lawful := ⟨fun _ => rfl, fun _ => rfl⟩

/-- The two applications of the examples; the client makes three tries. -/
def ex (kind : Kind) : Setting Nat (List Nat) Unit (PEntry Nat (List Nat) Unit ⊕ EEntry Nat (List Nat) Unit String) Nat Nat
    (PEntry Nat (List Nat) Nat ⊕ EEntry Nat (List Nat) Nat Nat) where
  kind := kind
  tries := 3
  text := fun _ => ""
  snd := exSnd
  rcv := exCfg

/-- Both applications started on empty files. -/
def ex0 (kind : Kind) := Net.start (ex kind) (Pair.open 2 [] []) (Pair.open 2 [] [])

theorem ex0_reach (kind : Kind) (P) : NReach (ex kind) P (ex0 kind) := .start (.new (by decide)) (.new (by decide))

/-! ### C76 -/

/-- **C76**, sent means arrived, part that holds: with a transient client whatever happens, with a persistent or datagram client as
long as no try is given up while its reply may still come, every message the sender counts as sent was accepted by the endpoint,
under the same span key and with the endpoint's reading of the payload that was handed to the client.
Missing: late replies of persistent and datagram clients (see `C76_persistent_refuted`, `C76_datagram_refuted`). -/
theorem C76_sent_partial {X : Setting K D M S M' R' S'} {n} (h : NReach X (Safe X.kind) n) (k : K) (hk : .succeeded k ∈ n.snd.log) :
    Arrived X.rcv.build n.snd.log n.rcv.core.log k :=
  (h.inv fun _ hl => hl).base.done k (handled_mem.mpr hk)

/-- **C76**, the payload: a message given to the sender as `d` and counted as sent was accepted by the endpoint as its reading of `d`. -/
theorem C76_payload_partial {X : Setting K D M S M' R' S'} (hc : X.snd.codecs.Lawful) (hkeep : ∀ m, X.snd.keep m = m)
    (hid : ∀ d d', X.snd.build d = some d' → X.snd.build d' = some d') {n} (h : NReach X (fun l => Safe X.kind l ∧ Orderly X l) n)
    (hf : Fresh n.snd.log) {k d m} (ha : .acked k d m ∈ n.snd.log) (hk : .succeeded k ∈ n.snd.log) :
    ∃ d' m', X.rcv.build d = some d' ∧ .acked k d' m' ∈ n.rcv.core.log := by
  obtain ⟨e, d', m', h1, h2, h3, h4⟩ := C76_sent_partial (h.mono fun _ hl => hl.1) k hk
  obtain ⟨lp0, le0, a, g1, g2, g3, g4, g5, g6, g7⟩ := sreach_amounts ⟨true, false, false⟩ hc
    (by intro s l hp; exact ⟨by simp, fun t e => absurd e (hp.1 t), fun k d e => .inl (hp.2 k d e)⟩) (h.senderOrderly fun _ hl => hl.2)
  obtain ⟨_, hca⟩ := micros_ind (carried_micro rfl hkeep hid) g5 ⟨⟨g1, g2, g3, g4⟩, carried_ofLists g3 g4⟩
  have := hca.started e (g6.log ▸ h1)
  rw [← g6.log, h2] at this
  rw [(cameIn_unique hf ha this).1] at h3
  exact ⟨d', m', h3, h4⟩

/-- **C76**, nothing gets lost on the way, part that holds: in runs as in `C76_sent_partial`, without cancellation, with handlers that
do not raise and payloads that validate, every message the sender was given or found is at every moment pending, being sent, failed
or removed at the sender, or was accepted by the endpoint, where it is waiting to be queued, pending, being handled, failed, handled
or removed. Missing: the exceptions of C17 and C25, and late replies. -/
theorem C76_accounted_partial {X : Setting K D M S M' R' S'} (hc : X.snd.codecs.Lawful) (hc' : X.rcv.codecs.Lawful)
    (hid : ∀ d d', X.snd.build d = some d' → X.snd.build d' = some d') (hid' : ∀ d d', X.rcv.build d = some d' → X.rcv.build d' = some d')
    {n} (h : NReach X (fun l => Safe X.kind l ∧ Orderly X l) n)
    (hf1 : ∀ e, .found e ∈ n.snd.log → X.snd.build e.data ≠ none) (hf2 : ∀ e, .foundFailed e ∈ n.snd.log → X.snd.build e.data ≠ none)
    (hf3 : ∀ e, .found e ∈ n.rcv.core.log → X.rcv.build e.data ≠ none) (hf4 : ∀ e, .foundFailed e ∈ n.rcv.core.log → X.rcv.build e.data ≠ none)
    {lp le lp' le'} (hl : PairHolds X.snd.codecs n.snd.pair lp le) (hl' : PairHolds X.rcv.codecs n.rcv.core.pair lp' le')
    (k : K) (hk : k ∈ known n.snd.log) :
    (k ∈ keys lp ∨ (∃ e ∈ inFlight n.snd.tasks, e.key = k) ∨ k ∈ keys le ∨ k ∈ removed n.snd.log) ∨
    (Arrived X.rcv.build n.snd.log n.rcv.core.log k ∧
      (k ∈ n.rcv.jobs.map Prod.fst ∨ k ∈ keys lp' ∨ (∃ e ∈ inFlight n.rcv.core.tasks, e.key = k) ∨ k ∈ keys le' ∨
        .succeeded k ∈ n.rcv.core.log ∨ k ∈ removed n.rcv.core.log)) := by
  rcases C25_never_lost_partial hc hid (h.senderOrderly fun _ hl => hl.2) hf1 hf2 hl k hk with g | g | g | g | g
  · exact .inl (.inl g)
  · exact .inl (.inr (.inl g))
  · exact .inl (.inr (.inr (.inl g)))
  · have ha := C76_sent_partial (h.mono fun _ hl => hl.1) k g
    obtain ⟨e, d, m, _, _, _, h4⟩ := ha
    exact .inr ⟨C76_sent_partial (h.mono fun _ hl => hl.1) k g,
      C17_never_lost_partial hc' hid' (h.handlerOrderly fun _ hl => hl.2) hf3 hf4 hl' k (known_acked h4)⟩
  · exact .inl (.inr (.inr (.inr g)))

/-- A transient client whose first try times out after the endpoint accepted the message, while the second is answered: message 8 is
sent; the first try of message 9 finds nobody listening. -/
def exRun : List (Label Nat (List Nat) Nat Nat) :=
  [.sender (.enqueue 8 [18]), .sender (.enqueue 9 [19]), .sender (.start 0), .send 0, .transmit, .arrive 0 (.busy ""), .accept 0 5,
   .gone .timeout, .transmit, .arrive 0 (.busy ""), .accept 0 6, .read 1, .send 0, .unsent (.broken true)]

example : ∃ n, NReach (ex .transient) (fun l => Safe (ex .transient).kind l ∧ Orderly (ex .transient) l) n ∧ Fresh n.snd.log ∧
    known n.snd.log = [9, 8] ∧ .succeeded 8 ∈ n.snd.log ∧ .acked 8 [18] () ∈ n.snd.log ∧ .acked 8 [18] 5 ∈ n.rcv.core.log ∧
    inFlight n.snd.tasks = [⟨9, 0, [19], ()⟩] ∧ n.phase = .ready 0 1 :=
  ⟨(steps (ex .transient) (ex0 .transient) exRun).get (by decide),
    steps_reach (ex0_reach _ _) (by
      intro l hl
      refine ⟨.inl rfl, ?_⟩
      simp only [exRun, List.mem_cons, List.not_mem_nil, or_false] at hl
      rcases hl with rfl | rfl | rfl | rfl | rfl | rfl | rfl | rfl | rfl | rfl | rfl | rfl | rfl | rfl <;>
        first | exact trivial | exact ⟨[18], rfl⟩ | exact ⟨[19], rfl⟩ | (intro h; cases h)) (Option.some_get _).symm,
    by decide, by decide, by decide, by decide, by decide, by decide, by decide⟩

/-- A persistent client whose connection breaks after writing: the message is written again on the new connection. -/
example : ∃ n, NReach (ex .persistent) (Safe (ex .persistent).kind) n ∧ .succeeded 8 ∈ n.snd.log ∧ n.conn = 1 :=
  ⟨(steps (ex .persistent) (ex0 .persistent) [.sender (.enqueue 8 [18]), .sender (.start 0), .send 0, .transmit, .gone (.broken true),
      .transmit, .arrive 1 (.busy ""), .accept 0 5, .read 0]).get (by decide),
    steps_reach (ex0_reach _ _) (by
      intro l hl
      simp only [List.mem_cons, List.not_mem_nil, or_false] at hl
      rcases hl with rfl | rfl | rfl | rfl | rfl | rfl | rfl | rfl | rfl <;> first | exact .inr trivial | exact .inr rfl)
      (Option.some_get _).symm, by decide, by decide⟩

/-- **C76 is false of the code for persistent clients**: a try of message 8 times out and is written again; the second reply is
taken for the reply to message 9, which the endpoint, by then not receiving, turned away. Message 9 counts as sent, is in no queue of the
sender, was never accepted, and nothing of it is under way. -/
theorem C76_persistent_refuted :
    ∃ n, NReach (ex .persistent) (fun _ => True) n ∧ .acked 9 [19] () ∈ n.snd.log ∧ .succeeded 9 ∈ n.snd.log ∧ removed n.snd.log = [] ∧
      n.snd.pair.pending.size = 0 ∧ n.snd.pair.error.size = 0 ∧ (∀ t ∈ n.snd.tasks, t = .done) ∧
      n.sends = [] ∧ n.asking = [] ∧ copies 9 n.rcv.core.log = 0 :=
  ⟨(steps (ex .persistent) (ex0 .persistent) [.sender (.enqueue 8 [18]), .sender (.start 0), .send 0, .transmit, .arrive 0 (.busy ""),
      .accept 0 5, .gone .timeout, .transmit, .read 0, .arrive 0 (.busy ""), .accept 0 6, .receiver .pauseReceiving,
      .sender (.enqueue 9 [19]), .sender (.start 1), .send 1, .transmit, .read 0, .arrive 0 (.busy "")]).get (by decide),
    steps_reach (ex0_reach _ _) (fun _ _ => trivial) (Option.some_get _).symm,
    by decide, by decide, by decide, by decide, by decide, by decide, by decide, by decide, by decide⟩

/-- **C76 is false of the code for datagram clients**: message 8 is written twice, the second reply is taken for the reply to message
9, whose datagram is lost. -/
theorem C76_datagram_refuted :
    ∃ n, NReach (ex .datagram) (fun _ => True) n ∧ .acked 9 [19] () ∈ n.snd.log ∧ .succeeded 9 ∈ n.snd.log ∧ removed n.snd.log = [] ∧
      n.snd.pair.pending.size = 0 ∧ n.snd.pair.error.size = 0 ∧ (∀ t ∈ n.snd.tasks, t = .done) ∧
      n.sends = [] ∧ n.asking = [] ∧ copies 9 n.rcv.core.log = 0 :=
  ⟨(steps (ex .datagram) (ex0 .datagram) [.sender (.enqueue 8 [18]), .sender (.enqueue 9 [19]), .sender (.start 0), .send 0, .transmit,
      .arrive 0 (.busy ""), .accept 0 5, .gone .timeout, .transmit, .arrive 0 (.busy ""), .accept 0 6, .read 0,
      .send 0, .transmit, .loseRequest 0, .read 0]).get (by decide),
    steps_reach (ex0_reach _ _) (fun _ _ => trivial) (Option.some_get _).symm,
    by decide, by decide, by decide, by decide, by decide, by decide, by decide, by decide, by decide⟩

/-! ### C77 -/

/-- **C77**, accepted once, part that holds: if no request that was written is given up, and nobody else talks to the endpoint, a
message sent once is accepted at most once, whatever kind the client is. Missing: time-outs and connections that break after the
request was written (see `C77_twice_refuted`). -/
theorem C77_accepted_once_partial {X : Setting K D M S M' R' S'} (hc : X.snd.codecs.Lawful) {n} (h : NReach X Undisturbed n)
    (hf : Fresh n.snd.log) (k : K) : copies k n.rcv.core.log ≤ 1 := by
  obtain ⟨lp, le, hl, _⟩ := C24_content hc h.sender
  obtain ⟨a, ha, _, _, _, _, hfa⟩ := sfacts hc h.sender hl hf
  have h1 := hfa.one (ha.log ▸ hf) k _ rfl
  have ho := h.once fun _ hl => hl
  rw [← ha.log, ← ha.fl] at h1
  by_cases hw : ∀ t rc, n.phase ≠ .waiting t rc
  · have := (ho.quiet hw).2 k
    omega
  · simp only [not_forall, not_not] at hw
    obtain ⟨t, rc, hp⟩ := hw
    obtain ⟨_, _, _, _, e, g5, g6, _⟩ := ho.cur t rc hp
    have := g6 k
    by_cases hek : e.key = k
    · have h2 : 0 < ((inFlight n.snd.tasks).map PEntry.key).count k :=
        List.count_pos_iff.mpr (List.mem_map.mpr ⟨e, inFlight_mem g5, hek⟩)
      rw [if_pos hek] at this
      omega
    · rw [if_neg hek] at this
      omega

/-- What an endpoint that found nothing is responsible for is what it accepted. -/
theorem known_copies {log : List (Ev K D M' R')} (h1 : ∀ e, .found e ∉ log) (h2 : ∀ e, .foundFailed e ∉ log) (k : K) :
    (known log).count k = copies k log := by
  induction log with
  | nil => rfl
  | cons x l ih =>
    have ih' := ih (fun e he => h1 e (by simp [he])) (fun e he => h2 e (by simp [he]))
    cases x with
    | found e => exact absurd (by simp) (h1 e)
    | foundFailed e => exact absurd (by simp) (h2 e)
    | acked k' d m =>
      simp only [known, copies, List.count_cons, ih', beq_iff_eq]
      split <;> rfl
    | _ => exact ih'

/-- **C77**, processed once, part that holds: then, on an endpoint that started with empty files, it is processed successfully at most
once. -/
theorem C77_processed_once_partial {X : Setting K D M S M' R' S'} (hc : X.snd.codecs.Lawful) (hc' : X.rcv.codecs.Lawful) {n}
    (h : NReach X Undisturbed n) (hf : Fresh n.snd.log) (h1 : ∀ e, .found e ∉ n.rcv.core.log) (h2 : ∀ e, .foundFailed e ∉ n.rcv.core.log)
    (k : K) : (handled n.rcv.core.log).count k ≤ 1 := by
  have hfr : Fresh n.rcv.core.log := List.nodup_iff_count_le_one.mpr fun k => by
    rw [known_copies h1 h2]; exact C77_accepted_once_partial hc h hf k
  obtain ⟨lp, le, hl, _⟩ := C16_content hc' h.handler
  have := (C17_exactly_one_place_partial hc' h.handler hfr hl).count_eq k
  rw [known_copies h1 h2] at this
  simp only [List.count_append] at this
  have := C77_accepted_once_partial hc h hf k
  omega

/-- The endpoint turns message 8 away at first; in the end both messages are sent and processed. -/
example : ∃ n, NReach (ex .persistent) Undisturbed n ∧ Fresh n.snd.log ∧ handled n.snd.log = [8, 9] ∧ handled n.rcv.core.log = [8, 9] ∧
    known n.rcv.core.log = [8, 9] ∧ n.rcv.core.pair.pending.size = 0 :=
  ⟨(steps (ex .persistent) (ex0 .persistent) [.sender (.enqueue 8 [18]), .sender (.enqueue 9 [19]), .sender (.start 0), .send 0,
      .unsent (.broken true), .transmit, .receiver .pauseReceiving, .arrive 0 (.busy ""), .receiver .unpauseReceiving, .read 0,
      .send 0, .transmit, .arrive 0 (.busy ""), .accept 0 5, .read 0, .send 0, .transmit, .arrive 0 (.busy ""), .accept 0 6, .read 0,
      .receiver (.push 0), .receiver (.push 0), .receiver (.start 0), .receiver (.finish 0 .ok), .receiver (.finish 0 .ok)]).get (by decide),
    steps_reach (ex0_reach _ _) (by
      intro l hl
      simp only [List.mem_cons, List.not_mem_nil, or_false] at hl
      rcases hl with rfl | rfl | rfl | rfl | rfl | rfl | rfl | rfl | rfl | rfl | rfl | rfl | rfl | rfl | rfl | rfl | rfl | rfl | rfl | rfl |
        rfl | rfl | rfl | rfl | rfl <;> exact trivial)
      (Option.some_get _).symm, by decide, by decide, by decide, by decide, by decide⟩

/-- **C77 is false of the code**: the reply of an accepted message comes too late, the client writes it again, and the endpoint
processes it twice. -/
theorem C77_twice_refuted :
    ∃ n, NReach (ex .transient) (fun _ => True) n ∧ known n.snd.log = [8] ∧ handled n.snd.log = [8] ∧
      copies 8 n.rcv.core.log = 2 ∧ handled n.rcv.core.log = [8, 8] :=
  ⟨(steps (ex .transient) (ex0 .transient) [.sender (.enqueue 8 [18]), .sender (.start 0), .send 0, .transmit, .arrive 0 (.busy ""),
      .accept 0 5, .receiver (.push 0), .receiver (.start 0), .receiver (.finish 0 .ok), .gone .timeout, .transmit, .arrive 0 (.busy ""),
      .accept 0 6, .receiver (.push 0), .receiver (.start 1), .receiver (.finish 1 .ok), .read 1]).get (by decide),
    steps_reach (ex0_reach _ _) (fun _ _ => trivial) (Option.some_get _).symm, by decide, by decide, by decide, by decide⟩

end Verif.Delivery
