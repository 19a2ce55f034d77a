import Verif.Client.Lemmas
import Verif.Buffered.Props
import Verif.Stream.Props

/-!
# Properties of the clients: C42 to C45, and C21
-/

namespace Verif.Client

open Verif.Py Verif.Client.Spec

variable {β : Type}

/-! ### C42 -/

/-- A library for the examples: three reply texts; data with a number under `x` is accepted. -/
def exLib : Lib Int where
  loads t :=
    if t = "ok" then some (.obj [("span_key", .null), ("status", .int 0), ("data", .obj [("x", .int 7)])])
    else if t = "busy" then some (.obj [("status", .int 500), ("data", .str "later")])
    else if t = "odd" then some (.obj [("status", .int 77), ("data", .str "?")])
    else if t = "denied" then some (.obj [("status", .int 200), ("data", .str "no")])
    else if t = "none" then some (.obj [("status", .int 0), ("data", .null)])
    else none
  spanOk _ := true
  text j := match j with | .str s => s | _ => ""
  numeral _ := "n"
  build f := match Dict.get? f "x" with | some (.int i) => some i | _ => none

/-- **C42, error statuses.** For every response with a status other than success, the client raises the error that
belongs to the status.

Missing (see `C42_denied_refuted`): status 200. -/
theorem C42_status_partial (L : Lib β) (r : Reply) (h0 : r.status ≠ 0) (h200 : r.status ≠ 200) :
    ∃ e, conclude L r = .error e ∧ Matches r.status e ∧ Documented e := by
  refine ⟨generateException L r, by simp [conclude, h0], ?_⟩
  unfold generateException Matches
  split
  · next h => exact ⟨.inl ⟨h, _, rfl⟩, trivial⟩
  · next h1 =>
    split
    · next h => exact ⟨.inr (.inr (.inl ⟨h, _, rfl⟩)), trivial⟩
    · next h2 =>
      split
      · next h => exact ⟨.inr (.inr (.inr (.inl ⟨h, _, rfl⟩))), trivial⟩
      · next h3 =>
        split
        · next h => exact ⟨.inr (.inr (.inr (.inr (.inl ⟨h, _, rfl⟩)))), trivial⟩
        · next h4 =>
          split
          · next h => exact ⟨.inr (.inr (.inr (.inr (.inr (.inl ⟨h, _, rfl⟩))))), trivial⟩
          · next h5 =>
            split
            · next h => exact ⟨.inr (.inr (.inr (.inr (.inr (.inr (.inl ⟨h, _, rfl⟩)))))), trivial⟩
            · next h6 =>
              exact ⟨.inr (.inr (.inr (.inr (.inr (.inr (.inr ⟨by simp [h0, h1, h200, h2, h3, h4, h5, h6], _, rfl⟩)))))), trivial⟩

example : ∃ e, conclude exLib ⟨500, .str "later"⟩ = .error e ∧ Matches 500 e ∧ Documented e :=
  C42_status_partial exLib ⟨500, .str "later"⟩ (by decide) (by decide)

/-- The errors of two different statuses are different: the client can tell them apart. -/
theorem C42_distinct {s s' : Int} {e : Err} (h : Matches s e) (h' : Matches s' e) :
    s = s' ∨ (∃ m, e = .unknownStatus m) := by
  unfold Matches at h h'
  rcases h with ⟨rfl, m, rfl⟩ | ⟨rfl, m, rfl⟩ | ⟨rfl, m, rfl⟩ | ⟨rfl, m, rfl⟩ | ⟨rfl, m, rfl⟩ | ⟨rfl, m, rfl⟩ | ⟨rfl, m, rfl⟩ | ⟨_, m, rfl⟩ <;>
    simp_all

/-- **C42, success.** Data are returned exactly if the status is success and they are accepted by the caller's type, and
then it is those data. -/
theorem C42_success (L : Lib β) (r : Reply) (v : β) :
    conclude L r = .ok v ↔ r.status = 0 ∧ ∃ fields, r.data = .obj fields ∧ L.build fields = some v := by
  unfold conclude
  by_cases h0 : r.status = 0
  · simp only [h0]
    cases hd : r.data with
    | obj f =>
      simp only [ne_eq, not_true_eq_false, if_false]
      cases hb : L.build f <;> simp [hb]
    | _ => simp
  · simp [h0]

/-- The branch for "client denied" asks the data for an attribute they never have: whatever the data, the caller gets
`AttributeError`. -/
theorem C42_denied_refuted (L : Lib β) (data : Json) :
    conclude L ⟨200, data⟩ = .error (.py .attributeError) ∧ ¬ Documented (.py .attributeError) ∧
      ∀ e, Matches 200 e → conclude L ⟨200, data⟩ ≠ .error e := by
  have h : conclude L ⟨200, data⟩ = .error (.py .attributeError) := rfl
  refine ⟨h, by simp [Documented], ?_⟩
  intro e he
  rw [h]
  unfold Matches at he
  simp at he
  obtain ⟨m, rfl⟩ := he
  simp

/-- A successful response whose data is not an object, for example `null` from an endpoint function that returns nothing,
ends in `TypeError`; so does a reply that is no object at all. -/
theorem C42_data_refuted (L : Lib β) (data : Json) (h : ∀ f, data ≠ .obj f) :
    conclude L ⟨0, data⟩ = .error (.py .typeError) ∧ replyDto L data = .error (.py .typeError) := by
  cases data <;> first | exact ⟨rfl, rfl⟩ | exact absurd rfl (h _)

/-- A reply that is cut off, or not JSON, ends in `JSONDecodeError`. -/
theorem C42_malformed_refuted (L : Lib β) (text : String) (h : L.loads text = none) :
    interpret L (some text) = .error .json ∧ ¬ Documented .json := by
  simp [interpret, h, Documented]

/-- A reply as the server should send it: a response object, not "client denied", with data of the caller's type on
success. -/
def WellFormed (L : Lib β) (text : String) : Prop :=
  ∃ j r, L.loads text = some j ∧ replyDto L j = .ok r ∧ r.status ≠ 200 ∧
    (r.status = 0 → ∃ f v, r.data = .obj f ∧ L.build f = some v)

/-- **C42, always documented.** With at least one attempt allowed: when replies are well formed, reconnecting works and nobody
cancels, a send ends with the data or a documented error, whatever happens to the attempts.

Missing: malformed replies, "client denied", data of the wrong type, failing reconnection (see the refutations). -/
theorem C42_documented_partial (L : Lib β) (kind : Kind) (max : Int) (hm : 0 < max) (as : List Attempt)
    (hw : ∀ t, .reply t ∈ as → WellFormed L t) (hb : .base ∉ as)
    (hr : .broken false ∉ as ∧ .empty false ∉ as) (res : Except Err β)
    (h : sendMessage L kind max (solo as) = some res) :
    (∃ v, res = .ok v) ∨ ∃ e, res = .error e ∧ Documented e := by
  unfold sendMessage at h
  rw [retryLoop_eq, loopFrom_verdict kind max as 0 hm] at h
  unfold verdict at h
  simp only at h
  split at h
  · next s hs =>
    split at hs
    · cases hs
    · split at hs
      · next a ha =>
        have hmem := List.mem_of_getElem? ha
        have : a = .reply s := by cases kind <;> cases a <;> simp_all [final]
        subst this
        obtain ⟨j, r, h1, h2, h3, h4⟩ := hw s hmem
        simp only [Option.some.injEq] at h
        subst h
        simp only [interpret, h1, h2]
        by_cases h0 : r.status = 0
        · obtain ⟨f, v, h5, h6⟩ := h4 h0
          exact .inl ⟨v, (C42_success L r v).2 ⟨h0, f, h5, h6⟩⟩
        · obtain ⟨e, h5, _, h6⟩ := C42_status_partial L r h0 h3
          exact .inr ⟨e, h5, h6⟩
      · cases hs
  · next hs =>
    split at hs
    · cases hs
    · split at hs
      · next a ha => cases kind <;> cases a <;> simp_all [final]
      · cases hs
  · next e hs =>
    simp only [Option.some.injEq] at h
    subst h
    right
    refine ⟨e, rfl, ?_⟩
    split at hs
    · cases hs; trivial
    · split at hs
      · next a ha =>
        have hmem := List.mem_of_getElem? ha
        cases a with
        | reply t => simp [final] at hs
        | base => exact absurd hmem hb
        | timeout => cases kind <;> simp [final] at hs <;> subst hs <;> trivial
        | other => cases kind <;> simp [final] at hs <;> subst hs <;> trivial
        | broken re =>
          cases kind with
          | transient => simp [final] at hs; subst hs; trivial
          | datagram => simp [final] at hs; subst hs; trivial
          | persistent =>
            cases re with
            | false => exact absurd hmem hr.1
            | true =>
              exfalso
              have := List.takeWhile_append_dropWhile (p := retryable .persistent) (l := as)
              have hd : as[(as.takeWhile (retryable .persistent)).length]? = (as.dropWhile (retryable .persistent)).head? := by
                conv => lhs; rw [← this]
                rw [List.getElem?_append_right (by simp)]
                simp [List.head?_eq_getElem?]
              rw [hd] at ha
              have := List.head?_dropWhile_not (retryable .persistent) as
              rw [ha] at this
              simp [retryable] at this
        | empty re =>
          cases kind with
          | transient => simp [final] at hs; subst hs; trivial
          | datagram => simp [final] at hs; subst hs; trivial
          | persistent =>
            cases re with
            | false => exact absurd hmem hr.2
            | true =>
              exfalso
              have := List.takeWhile_append_dropWhile (p := retryable .persistent) (l := as)
              have hd : as[(as.takeWhile (retryable .persistent)).length]? = (as.dropWhile (retryable .persistent)).head? := by
                conv => lhs; rw [← this]
                rw [List.getElem?_append_right (by simp)]
                simp [List.head?_eq_getElem?]
              rw [hd] at ha
              have := List.head?_dropWhile_not (retryable .persistent) as
              rw [ha] at this
              simp [retryable] at this
      · cases hs
  · cases h

example : sendMessage exLib .transient 3 (solo [.timeout, .broken true, .reply "ok"]) = some (.ok 7) ∧
    sendMessage exLib .persistent 3 (solo [.empty true, .reply "odd"]) = some (.error (.unknownStatus "Unrecognised status code[n]: ?")) ∧
    sendMessage exLib .datagram 2 (solo [.timeout, .timeout, .reply "ok"]) = some (.error .maxRetries) := by decide +kernel

/-! ### C43 -/

/-- **C43.** For every client, every positive `max_retries` and all attempt outcomes of a send that runs alone: the first outcome
that is not retryable ends it (a reply is returned, anything else is an error), unless `max_retries` retryable failures come first;
then, and only then, it ends with "max retries reached" after exactly that many attempts. -/
theorem C43_attempts (kind : Kind) (max : Int) (hm : 0 < max) (as : List Attempt) :
    retryLoop kind max (solo as) = verdict kind max.toNat as := by
  rw [retryLoop_eq, loopFrom_verdict kind max as 0 hm]; simp

/-- **C43, bound.** Never more than `max_retries` attempts, whatever other sends do. -/
theorem C43_bound (kind : Kind) (max : Int) (as : List (Bool × Attempt)) : (retryLoop kind max as).2 ≤ max.toNat := by
  rw [retryLoop_eq]; simpa using loopFrom_bound kind max as 0

example : retryLoop .transient 3 (solo [.timeout, .broken true, .timeout, .reply "late"]) = (.raised .maxRetries, 3) ∧
    retryLoop .transient 3 (solo [.timeout, .empty true, .reply "x"]) = (.raised .nonRetryable, 2) ∧
    retryLoop .persistent 3 (solo [.timeout, .empty true, .reply "x"]) = (.value "x", 3) ∧
    retryLoop .datagram 1 (solo [.timeout]) = (.raised .maxRetries, 1) := by decide

/-- With `max_retries` zero (or negative) no attempt is made and no error is raised by the loop: it returns `None`, which
`json.loads` then refuses with a `TypeError`. -/
theorem C43_zero_refuted (L : Lib β) (kind : Kind) (max : Int) (hm : max ≤ 0) (a : Attempt) (as : List Attempt) :
    retryLoop kind max (solo (a :: as)) = (.nothing, 0) ∧
    sendMessage L kind max (solo (a :: as)) = some (.error (.py .typeError)) := by
  have h : retryLoop kind max (solo (a :: as)) = (.nothing, 0) := by
    rw [retryLoop_eq]
    simp only [solo, List.map_cons]
    rw [loopFrom_cons, if_neg (by omega)]
  exact ⟨h, by simp [sendMessage, h, interpret]⟩

/-- The persistent client reconnects inside its `except` clause: when that fails, the operating system's error reaches the caller
instead of a client error, although further attempts were allowed. -/
theorem C43_reconnect_refuted (L : Lib β) (max : Int) (hm : 1 < max) (rest : List Attempt) :
    sendMessage L .persistent max (solo (.broken false :: rest)) = some (.error .os) ∧ ¬ Documented .os := by
  refine ⟨?_, by simp [Documented]⟩
  have h : retryLoop .persistent max (solo (.broken false :: rest)) = (.raised .os, 1) := by
    rw [retryLoop_eq]
    simp only [solo, List.map_cons]
    rw [loopFrom_cons, if_pos ⟨by omega, .inr rfl⟩]
    simp [retryable, final, count]
  simp [sendMessage, h]

/-! ### C44 -/

/-- **C44, transient clients.** The client writes one request line on a fresh connection and reads one line. Whatever the chunking
and scheduling on the server's side, all that is ever written to that connection is the reply to that line. -/
theorem C44_transient {K σ : Type} {E : Stream.Endpoint K σ} {w : Server.World K σ} {es : List Stream.Ev} {c : Stream.Conn K σ}
    {request : Stream.Bytes} (hl : Stream.Spec.lines request = ([request], []))
    (hs : Stream.steps E (Stream.accept true w) es = some c) (hr : Stream.Spec.received es = request) :
    c.out = [] ∨ ∃ o w', c.out = [o] ∧ Stream.Spec.Replied E request w o w' := by
  obtain ⟨hlen, w', hx⟩ := Stream.C37_prefix hs
  rw [hr, hl] at hlen hx
  match ho : c.out with
  | [] => exact .inl rfl
  | [o] =>
    rw [ho] at hx
    cases hx with
    | cons _ _ _ _ w1 _ _ h1 h2 => exact .inr ⟨o, w1, rfl, h1⟩
  | _ :: _ :: _ => rw [ho] at hlen; simp at hlen

example : Stream.Spec.lines [97, 10] = ([[97, 10]], []) := by decide

/-- **C44, persistent clients.** Requests and heartbeats of any number of tasks on one client: as long as no read times out,
and a broken connection is noticed or replaced only while no other task waits for a reply, every reply that is read answers the
line of the task that reads it.

Missing: everything after a time-out (see `C44_late_refuted`, `C44_shift_refuted`), and a connection lost while several tasks wait
(`C44_lost_refuted`). -/
theorem C44_persistent_partial {es : List PEv} {p : Pipe} (hc : Along Calm Pipe.new es) (h : psteps Pipe.new es = some p) :
    Correct p.got :=
  (aligned_along es (⟨by simp [Pipe.new], by simp [Pipe.new], by simp [Correct, Pipe.new]⟩ : Aligned Pipe.new) hc h).got

/-- Two tasks and a heartbeat, a lost connection, and another request. -/
def exCalm : List PEv := [.send ⟨1, .request 1⟩, .send ⟨0, .enq⟩, .send ⟨2, .request 2⟩, .reply, .reply, .reply,
  .send ⟨1, .request 3⟩, .lost, .reconnect, .send ⟨1, .request 3⟩, .reply]

example : Along Calm Pipe.new exCalm ∧ (psteps Pipe.new exCalm).map (fun p => p.got.length) = some 4 := by
  refine ⟨?_, by decide⟩
  simp [exCalm, Along, pstep, Pipe.new, Calm]

/-- **C44, order of replies.** While a connection lasts, the `n`-th reply that is read, by whomever, answers the `n`-th line written
on it (`C44_shift_refuted` shows what that means after a time-out). -/
theorem C44_fifo {es : List PEv} {w : Waiter} {p : Pipe} (hw : w.line ≠ .enq)
    (hes : ∀ e ∈ es, e ≠ .lost ∧ e ≠ .reconnect ∧ ∀ w, e = .send w → w.line ≠ .enq)
    (h : psteps Pipe.new (.send w :: es) = some p) :
    p.got.map Prod.snd ++ p.pipe = written (.send w :: es) := by
  unfold psteps at h
  simp only [pstep, Pipe.new] at h
  have := fifo_steps es hes (p := ⟨true, [w.line], [] ++ [w], []⟩) rfl (by simp [hw]) h
  simpa [written] using this.2

/-- One read times out; the reply arrives later and is taken for the reply to the next request. -/
theorem C44_late_refuted : ∃ p, psteps Pipe.new
      [.send ⟨1, .request 1⟩, .timeout, .send ⟨2, .request 2⟩, .reply] = some p ∧
    p.got = [(⟨2, .request 2⟩, .request 1)] ∧ ¬ Correct p.got := by
  refine ⟨_, rfl, rfl, ?_⟩
  intro h
  have := h (⟨2, .request 2⟩, .request 1) (by simp)
  simp at this

/-- Requests made one after the other. -/
def exchange : List Nat → List PEv
  | [] => []
  | r :: rs => .send ⟨r, .request r⟩ :: .reply :: exchange rs

theorem shift_run (rs : List Nat) : ∀ (prev : Nat) (g : List (Waiter × Line)),
    psteps ⟨true, [.request prev], [], g⟩ (exchange rs) =
      some ⟨true, [.request ((prev :: rs).getLast (by simp))], [],
        g ++ (rs.zip (prev :: rs)).map (fun x => (⟨x.1, .request x.1⟩, .request x.2))⟩ := by
  induction rs with
  | nil => intro prev g; simp [exchange, psteps]
  | cons r rs ih =>
    intro prev g
    simp only [exchange, psteps, pstep, if_true, List.nil_append, List.cons_append]
    simp only [List.cons.injEq, reduceCtorEq, decide_false, Bool.false_and, Bool.not_false, Bool.and_self, ih]
    simp [List.getLast_cons]

/-- After a single time-out, every later reply on the connection goes to the wrong request: each caller gets the reply to the
request before its own, for ever. -/
theorem C44_shift_refuted (r₀ : Nat) (rs : List Nat) : ∃ p,
    psteps Pipe.new (.send ⟨r₀, .request r₀⟩ :: .timeout :: exchange rs) = some p ∧
    p.got = (rs.zip (r₀ :: rs)).map (fun x => (⟨x.1, .request x.1⟩, .request x.2)) := by
  have h : psteps Pipe.new (.send ⟨r₀, .request r₀⟩ :: .timeout :: exchange rs) =
      psteps ⟨true, [.request r₀], [], []⟩ (exchange rs) := by
    simp [psteps, pstep, Pipe.new]
  rw [h, shift_run]
  exact ⟨_, rfl, by simp⟩

/-- Two tasks wait; the connection breaks, the first task reconnects and tries again; the second, still waiting, reads the
reply meant for the first. -/
theorem C44_lost_refuted : ∃ p, psteps Pipe.new
      [.send ⟨1, .request 1⟩, .send ⟨2, .request 2⟩, .lost, .reconnect, .send ⟨1, .request 1⟩, .reply] = some p ∧
    p.got = [(⟨2, .request 2⟩, .request 1)] ∧ ¬ Correct p.got := by
  refine ⟨_, rfl, rfl, ?_⟩
  intro h
  have := h (⟨2, .request 2⟩, .request 1) (by simp)
  simp at this

/-- **C44, datagram client.** As long as no wait times out, every reply answers the request it is returned for; datagrams may get lost.

Missing: `C44_datagram_refuted`. -/
theorem C44_datagram_partial {es : List GEv} {d : Dg} (hno : GEv.timeout ∉ es) (h : gsteps Dg.new es = some d) :
    ∀ x ∈ d.got, x.1 = x.2 :=
  (ginv_steps es hno (⟨by simp [Dg.new], by simp [Dg.new], by simp [Dg.new], by simp [Dg.new], by simp [Dg.new], by simp [Dg.new]⟩ : GInv Dg.new) h).got

example : (gsteps Dg.new [.send 1, .deliver 0, .send 2, .deliver 0]).map (·.got) = some [(1, 1), (2, 2)] := by decide

/-- The wait for the first reply times out; the reply arrives after the second request was sent, and is returned for it. -/
theorem C44_datagram_refuted : ∃ d, gsteps Dg.new [.send 1, .timeout, .send 2, .deliver 0] = some d ∧ d.got = [(2, 1)] :=
  ⟨_, rfl, rfl⟩

/-! ### C45 -/

/-- **C45.** Any number of sends on one client object, in any interleaving: a send that is over ended just as it would have ended
alone with the same attempt outcomes, or it is a send of a stream client that had a retryable failure while another send
succeeded, and it returned nothing.

Missing: that last case, see `C45_disturbed_refuted`. -/
theorem C45_alone_partial {kind : Kind} {max : Int} (hm : 0 < max) {es : List SEv} {c : Shared}
    (h : ssteps kind max Shared.new es = some c) (i : Nat) (e : End) (hi : c.sends[i]? = some (.over e)) :
    e = (verdict kind max.toNat (outcomes i es)).1 ∨
    (e = .nothing ∧ kind ≠ .datagram ∧ (∃ a ∈ outcomes i es, retryable kind a = true) ∧
      ∃ (j : Nat) (s : String), j ≠ i ∧ c.sends[j]? = some (.over (.value s))) := by
  rcases (sinv_reach hm h).track i _ hi with ⟨h1, _⟩ | h1
  · left
    rw [h1, loopFrom_verdict kind max _ 0 hm]; simp
  · exact .inr h1

/-- **C45, datagram client.** There sends do not disturb each other at all. -/
theorem C45_datagram {max : Int} (hm : 0 < max) {es : List SEv} {c : Shared}
    (h : ssteps .datagram max Shared.new es = some c) (i : Nat) (e : End) (hi : c.sends[i]? = some (.over e)) :
    e = (verdict .datagram max.toNat (outcomes i es)).1 := by
  rcases C45_alone_partial hm h i e hi with h1 | ⟨_, h1, _⟩
  · exact h1
  · exact absurd rfl h1

/-- A send that times out once, while another one on the same client succeeds, gives up at its next look at the shared flag: it
returns nothing, and its caller gets a `TypeError`. -/
theorem C45_disturbed_refuted (L : Lib β) : ∀ kind, kind ≠ .datagram →
    ∃ c, ssteps kind 3 Shared.new [.start, .start, .outcome 0 .timeout, .outcome 1 (.reply "r"), .check 0] = some c ∧
      c.sends[0]? = some (.over .nothing) ∧ interpret L none = .error (.py .typeError) := by
  intro kind hk
  cases kind with
  | datagram => exact absurd rfl hk
  | transient => exact ⟨_, rfl, rfl, rfl⟩
  | persistent => exact ⟨_, rfl, rfl, rfl⟩

/-! ### C21 -/

section C21

open Verif.Server Verif.Server.Spec

variable {K σ : Type}

/-- **C21, nothing is stored.** While receiving is paused, a request leaves both queues, the requests on their way into them and
the worker as they are, whatever it holds; and receiving stays paused. -/
theorem C21_unchanged_partial {K D M R S : Type} [DecidableEq K] {cfg : Buffered.Cfg K D M R S} (s : Buffered.Handler.HSt K D M R S)
    (hp : s.recvPaused = true) (k : K) (raw : D) :
    ∃ s', Buffered.Handler.step cfg s (.arrive k raw) = some s' ∧ s'.core.pair = s.core.pair ∧ s'.jobs = s.jobs ∧
      s'.collecting = s.collecting ∧ s'.core.tasks = s.core.tasks ∧ s'.recvPaused = true := by
  simp only [Buffered.Handler.step, hp, if_true]
  cases cfg.build raw <;> exact ⟨_, rfl, rfl, rfl, rfl, rfl, rfl⟩

/-- What the server answers while receiving is paused, for every server without middleware and every request for the endpoint that
gets past validation: status 999. The client turns that into `UnhandledException`, whatever the text, and a buffered sender
does not try again (`Verif.Buffered.C24_classification`: the message goes to the error queue). The exception class carries
the status "application busy", but `_route_request` handles only routing exceptions by their own status. -/
theorem C21_busy_refuted {S : Server K σ} (hm : S.middlewares = []) {text : String} {r : Req K} (hp : Parsed S text r)
    {h : Handler K σ} (hh : S.table.get? r.routeKey = some h) {f : List (String × Json)} {d : Json} (hd : r.data = .obj f)
    (hb : h.build f = .ok d) {run : Kwargs K → M K σ (Val K)} (hbody : h.body = .buffered run) {msg : String}
    (hrun : ∀ kw w, (run kw w).1 = .error (.paused 500 msg)) (w : World K σ) (L : Lib β) :
    ∃ resp, (routeRequest S text w).1 = .ok resp ∧ resp.status = 999 ∧ resp.status ≠ 500 ∧
      ∀ data, conclude L ⟨resp.status, data⟩ = .error (.unhandled (L.text data)) ∧
        ∀ t, ∃ reason, outcomeOf t (conclude L ⟨resp.status, data⟩) = .fatal reason := by
  have key : ∃ resp, (routeRequest S text w).1 = .ok resp ∧ resp.status = 999 := by
    obtain ⟨hout, _⟩ := routeRequest_route hp w
    have hrt : ∀ w1, (route S r [("span_key", .span r.spanKey)] w1).1 = .error (.paused 500 msg) := by
      intro w1
      have hbef : runBefore S.middlewares (Dict.set [("span_key", .span r.spanKey)] "protocol_dto" (.req r)) = M.pure (.req r) := by
        rw [hm]; rfl
      have hatt : ∃ kw, attempt h (Dict.set (Dict.set [("span_key", .span r.spanKey)] "protocol_dto" (.req r)) "protocol_dto" (.req r)) =
          invoke (.handler h.name) kw (run kw) := by
        refine ⟨Dict.set (Dict.erase (Dict.set (Dict.set [("span_key", .span r.spanKey)] "protocol_dto" (.req r)) "protocol_dto" (.req r)) "protocol_dto") "dto" (.model d), ?_⟩
        unfold attempt
        have hg : Dict.get? (Dict.set (Dict.set [("span_key", .span r.spanKey)] "protocol_dto" (.req r)) "protocol_dto" (.req r)) "protocol_dto" =
          some (.req r : Val K) := rfl
        simp only [hg, hd, hb, Server.run, hbody]
      obtain ⟨kw, hatt⟩ := hatt
      have hbody : (routeBody S h r [("span_key", .span r.spanKey)] w1).1 = .error (.paused 500 msg) := by
        unfold routeBody
        rw [hbef]
        simp only [M.bind, M.pure, hatt, invoke]
        rcases hx : run kw { w1 with trace := w1.trace ++ [.call (.handler h.name) kw w1.ctx] } with ⟨res, w2⟩
        have := hrun kw { w1 with trace := w1.trace ++ [.call (.handler h.name) kw w1.ctx] }
        rw [hx] at this
        simp only at this
        rw [this]
      unfold route
      simp only [hh, catchApp]
      rcases hx : routeBody S h r [("span_key", .span r.spanKey)] w1 with ⟨res, w2⟩
      rw [hx] at hbody
      simp only at hbody
      rw [hbody]
    rw [hrt] at hout
    exact ⟨_, hout, rfl⟩
  obtain ⟨resp, h1, h2⟩ := key
  refine ⟨resp, h1, h2, by rw [h2]; decide, ?_⟩
  intro data
  rw [h2]
  exact ⟨rfl, fun t => ⟨_, rfl⟩⟩

/-- A server whose endpoint "echo" is buffered and paused. -/
def exPaused : Server Int Nat :=
  { exServer with
    middlewares := []
    table := [("echo", { exEcho with body := .buffered fun _ => M.raise (.paused 500 "Receiving on 'echo' has been paused.") })] }

example : ∃ resp, (routeRequest exPaused "a" exWorld).1 = .ok resp ∧ resp.status = 999 ∧ resp.status ≠ 500 ∧
    ∀ data, conclude exLib ⟨resp.status, data⟩ = .error (.unhandled (exLib.text data)) ∧
      ∀ t, ∃ reason, outcomeOf t (conclude exLib ⟨resp.status, data⟩) = .fatal reason :=
  C21_busy_refuted (S := exPaused) rfl (r := ⟨"echo", 1, .obj [("x", .int 7)]⟩)
    ⟨_, rfl, by simp [Valid, Dict.get?, exPaused, exServer, exSpan]⟩ (h := { exEcho with body := .buffered fun _ => M.raise (.paused 500 "Receiving on 'echo' has been paused.") })
    (by simp [exPaused, Dict.get?]) rfl rfl rfl (fun _ _ => rfl) exWorld exLib

/-- What would have to be answered: with status 500 the client raises `ServerBusyException` and a buffered sender tries again. -/
theorem C21_retry_partial (L : Lib β) (data : Json) (t : Err → String) :
    conclude L ⟨500, data⟩ = .error (.busy (L.text data)) ∧ outcomeOf t (conclude L ⟨500, data⟩) = .retry := ⟨rfl, rfl⟩

end C21

end Verif.Client
