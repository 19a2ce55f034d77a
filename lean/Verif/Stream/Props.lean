import Verif.Stream.Lemmas
import Verif.Server.Props

/-!
# Properties of the connection loops: C37, C38, C61
-/

namespace Verif.Stream

open Verif.Py Verif.Server Verif.Stream.Spec

variable {K σ A : Type}

/-! ### An endpoint for the examples -/

/-- The example server of `Verif.Server.Props`, for text with a newline at its end. -/
def exEnd : Endpoint Int Nat where
  server := { exServer with loads := fun t => if t = "a\n" then exLoads "a" else if t = "b\n" then exLoads "b" else exLoads "bad" }
  dumps r := some (if r.status = 0 then "{0}" else "{1}")
  limit := 8

/-! ### C37 -/

/-- **C37.** However the arriving bytes are cut into chunks and however arrival and processing interleave:
when the lines can be answered (`Exchange`) and are not over-long, the connection never dies, what has been
written at any time is the front of the list of replies, and once the task has nothing left to do exactly one
reply per line has been written, in order, and the connection is closed exactly if the peer closed its side.

Missing (see `C37_undecodable_refuted`, `C37_long_refuted`): lines that are not UTF-8 or are longer than the
reader's limit get no reply and end the connection. -/
theorem C37_replies_partial {E : Endpoint K σ} {w w' : World K σ} {es : List Ev} {c : Conn K σ} {os : List Bytes}
    (hno : Ev.turnReset ∉ es) (h : steps E (accept true w) es = some c)
    (hfit : Fits E.limit (received es)) (hx : Exchange E (lines (received es)).1 w os w') :
    c.phase ≠ .crashed ∧ (∃ rest, os = c.out ++ rest) ∧
    (Quiet E c → c.out = os ∧ c.world = w' ∧ (c.phase = if c.eof then .closed else .serving)) := by
  obtain ⟨done, w1, hI⟩ := inv_reach hno h
  have hd : ∀ l ∈ done, IsLine l := fun l hl => (hI.lines l hl).1
  have split : ∀ tail, received es = done.flatten ++ tail →
      Fits E.limit tail ∧ ∃ rest, os = c.out ++ rest ∧ Exchange E (lines tail).1 w1 rest w' := by
    intro tail ht
    rw [ht] at hfit hx
    rw [lines_flatten done hd] at hx
    exact ⟨hfit.tail hd, hI.exch.front hx⟩
  refine ⟨?_, ?_, ?_⟩
  · intro hp
    obtain ⟨tail, ht, hf⟩ := hI.crashed hp
    obtain ⟨h1, rest, _, h2⟩ := split tail ht
    exact not_fatal h1 h2 hf
  · have : ∃ tail, received es = done.flatten ++ tail := by
      cases hp : c.phase with
      | serving => exact ⟨_, (hI.serving hp).1⟩
      | closed => obtain ⟨_, _, tail, ht, _⟩ := hI.closed hp; exact ⟨tail, ht⟩
      | crashed => obtain ⟨tail, ht, _⟩ := hI.crashed hp; exact ⟨tail, ht⟩
      | ignored => exact absurd hp hI.ignored
    obtain ⟨tail, ht⟩ := this
    obtain ⟨_, rest, h2, _⟩ := split tail ht
    exact ⟨rest, h2⟩
  · intro hq
    obtain ⟨tail, ht, hc⟩ := hI.quiet hq
    obtain ⟨h1, rest, h2, h3⟩ := split tail ht
    rcases hc with ⟨_, hf⟩ | ⟨hn, _, hw, hs⟩
    · exact absurd hf (not_fatal h1 h3)
    · rw [lines_of_not_mem tail hn] at h3
      cases h3
      refine ⟨by simpa using h2.symm, hw, ?_⟩
      rcases hs with ⟨hp, he⟩ | ⟨hp, he⟩ <;> simp [hp, he]

/-- Two requests, one of them failing, and a heartbeat between them, cut in the middle of lines. -/
def exEvents : List Ev := [.feed [97], .feed [10, 5], .turn, .feed [10, 98], .turn, .eof]

/-- The same bytes at once. -/
def exEvents' : List Ev := [.feed [97, 10, 5, 10, 98], .eof, .turn, .turn, .turn]

example : lines (received exEvents) = ([[97, 10], [5, 10]], [98]) := by decide

example : ((steps exEnd (accept true exWorld) exEvents).map (fun c => (c.out, c.buf))) =
    some ([[123, 48, 125, 10], [6, 10]], [98]) := by decide +kernel

example : ((steps exEnd (accept true exWorld) exEvents').map (fun c => (c.out, c.phase, c.world.app))) =
    some ([[123, 48, 125, 10], [6, 10]], .closed, 4) := by decide +kernel

example : ((steps exEnd (accept true exWorld) (.feed [98, 10, 97, 10, 1, 10] :: [.turn, .turn, .turn])).map (fun c => (c.out, c.phase))) =
    some ([[123, 49, 125, 10], [123, 48, 125, 10], [123, 49, 125, 10]], .serving) := by decide +kernel

example : Fits exEnd.limit (received exEvents) := by decide

/-- **C37, the task gets there.** From any state, finitely many turns lead to one in which the task has nothing
left to do with the bytes that have arrived. -/
theorem C37_progress (E : Endpoint K σ) (c : Conn K σ) :
    ∃ k c', steps E c (List.replicate k .turn) = some c' ∧ Quiet E c' := turns_exist E _ c (Nat.le_refl _)

/-- **C37, chunking.** For all byte streams, answerable or not: two runs that receive the same bytes and have
nothing left to do have written the same replies and stand the same way. -/
theorem C37_chunking {E : Endpoint K σ} {w : World K σ} {es₁ es₂ : List Ev} {c₁ c₂ : Conn K σ}
    (h₁ : steps E (accept true w) es₁ = some c₁) (h₂ : steps E (accept true w) es₂ = some c₂)
    (hn₁ : Ev.turnReset ∉ es₁) (hn₂ : Ev.turnReset ∉ es₂)
    (hb : received es₁ = received es₂) (he : c₁.eof = c₂.eof) (hq₁ : Quiet E c₁) (hq₂ : Quiet E c₂) :
    c₁.out = c₂.out ∧ c₁.phase = c₂.phase ∧ (c₁.phase ≠ .crashed → c₁.world = c₂.world) := by
  obtain ⟨d1, w1, hI1⟩ := inv_reach hn₁ h₁
  obtain ⟨d2, w2, hI2⟩ := inv_reach hn₂ h₂
  rw [hb] at hI1
  exact quiet_det hI1 hI2 hq₁ hq₂ he

/-- **C37, safety.** At any time, also when the peer resets the connection or the task dies, the `n` replies
written are the replies to the first `n` lines. -/
theorem C37_prefix {E : Endpoint K σ} {w : World K σ} {es : List Ev} {c : Conn K σ}
    (h : steps E (accept true w) es = some c) :
    c.out.length ≤ (lines (received es)).1.length ∧
    ∃ w', Exchange E ((lines (received es)).1.take c.out.length) w c.out w' := by
  obtain ⟨done, w1, hS⟩ := safe_reach h
  obtain ⟨rest, hr⟩ := hS.rest
  rw [hr, lines_flatten done hS.lines, hS.exch.length]
  refine ⟨by simp, w1, ?_⟩
  simpa using hS.exch

theorem encode_line (s : String) : encode (s ++ "\n") = encode s ++ [10] := by
  have : "\n".toByteArray.data.toList = [10] := by decide +kernel
  simp [encode, this]

/-- **C37, framing.** When serialised responses contain no newline byte, what has been written is a sequence
of complete lines, one per reply. -/
theorem C37_framing {E : Endpoint K σ} {w : World K σ} {es : List Ev} {c : Conn K σ}
    (hs : ∀ resp s, E.dumps resp = some s → (10 : UInt8) ∉ encode s)
    (h : steps E (accept true w) es = some c) : lines c.out.flatten = (c.out, []) := by
  obtain ⟨_, w', hx⟩ := C37_prefix h
  generalize (lines (received es)).1.take c.out.length = ls at hx
  have : ∀ o ∈ c.out, IsLine o := by
    generalize c.out = os at hx
    clear h
    induction hx with
    | nil => simp
    | cons l ls w o w1 os w2 hr _ ih =>
      intro o' ho'
      rcases List.mem_cons.1 ho' with rfl | ho'
      · cases hr with
        | heartbeat => exact ⟨[6], rfl, by decide⟩
        | request text resp s _ _ _ _ hs' => exact ⟨encode s, encode_line s, hs _ _ hs'⟩
      · exact ih o' ho'
  have h2 := lines_flatten c.out this []
  simpa [lines] using h2

theorem first_feed (E : Endpoint K σ) (w : World K σ) (b : Bytes) (es : List Ev) :
    steps E (accept true w) (.feed b :: es) = steps E ⟨b, false, .serving, [], w⟩ es := by
  simp [steps, step, accept]

theorem first_turn (E : Endpoint K σ) (c c' : Conn K σ) (es : List Ev) (h : turn E false c = some c') :
    steps E c (.turn :: es) = steps E c' es := by
  simp [steps, step, h]

/-- A line that is not UTF-8 ends the connection without a reply, and nothing that follows is answered. -/
theorem C37_undecodable_refuted (E : Endpoint K σ) (w : World K σ) (hl : 2 ≤ E.limit) (rest : Bytes) (es : List Ev)
    (c : Conn K σ) (h : steps E (accept true w) (.feed ([255, 10] ++ rest) :: .turn :: es) = some c) :
    c.phase = .crashed ∧ c.out = [] := by
  have hd : decode [255, 10] = none := by decide +kernel
  have ha : answer E ([255] ++ [10]) w = (none, w) := by
    simp only [answer, List.cons_append, List.nil_append, hd]
    simp [ENQ]
  have ht := turn_line (E := E) (lost := false) (c := ⟨[255, 10] ++ rest, false, .serving, [], w⟩) rfl (x := [255])
    (rest := rest) rfl (by decide)
  rw [if_neg (by simp; omega), ha] at ht
  rw [first_feed, first_turn E _ _ _ ht] at h
  obtain ⟨h1, h2, _⟩ := ended_stays es (by simp) h
  exact ⟨h1, h2⟩

example : ∃ c, steps exEnd (accept true exWorld) (.feed ([255, 10] ++ [97, 10]) :: .turn :: [.eof]) = some c :=
  Option.isSome_iff_exists.1 (by decide +kernel)

/-- A line longer than the reader's limit ends the connection without a reply, and nothing that follows is
answered. (The code uses asyncio's default limit of 65536 bytes.) -/
theorem C37_long_refuted (E : Endpoint K σ) (w : World K σ) (x rest : Bytes) (hx : (10 : UInt8) ∉ x)
    (hl : x.length > E.limit) (es : List Ev)
    (c : Conn K σ) (h : steps E (accept true w) (.feed (x ++ 10 :: rest) :: .turn :: es) = some c) :
    c.phase = .crashed ∧ c.out = [] := by
  have ht := turn_line (E := E) (lost := false) (c := ⟨x ++ 10 :: rest, false, .serving, [], w⟩) rfl (x := x)
    (rest := rest) rfl hx
  rw [if_pos hl] at ht
  rw [first_feed, first_turn E _ _ _ ht] at h
  obtain ⟨h1, h2, _⟩ := ended_stays es (by simp) h
  exact ⟨h1, h2⟩

example : ∃ os w', Exchange exEnd (lines (received exEvents)).1 exWorld os w' := by
  have h : ∃ c, steps exEnd (accept true exWorld) exEvents = some c := Option.isSome_iff_exists.1 (by decide +kernel)
  obtain ⟨c, hc⟩ := h
  have hl : ((steps exEnd (accept true exWorld) exEvents).map (fun c => c.out.length)) = some 2 := by decide +kernel
  rw [hc] at hl
  simp only [Option.map_some, Option.some.injEq] at hl
  obtain ⟨_, w', hx⟩ := C37_prefix hc
  rw [hl] at hx
  exact ⟨_, w', hx⟩

/-! ### C38 -/

/-- **C38, replies.** On a stream connection, whatever else is sent, however the bytes are cut and whether or
not the connection is lost: where the `i`-th line is a heartbeat, the `i`-th reply is the ACK line. -/
theorem C38_ack {E : Endpoint K σ} {w : World K σ} {es : List Ev} {c : Conn K σ}
    (h : steps E (accept true w) es = some c) (i : Nat) (l o : Bytes)
    (hl : (lines (received es)).1[i]? = some l) (hb : Heartbeat l) (ho : c.out[i]? = some o) : o = [6, 10] := by
  obtain ⟨hlen, w', hx⟩ := C37_prefix h
  have hi : i < c.out.length := (List.getElem?_eq_some_iff.1 ho).1
  obtain ⟨w2, w3, hr⟩ := hx.get i l o (by rw [List.getElem?_take_of_lt hi]; exact hl) ho
  cases hr with
  | heartbeat => rfl
  | request _ _ _ _ hb' => exact absurd hb hb'

/-- **C38, always answered.** A heartbeat line at the front of the buffer, however long the task has been
running and whatever follows it, is answered in one turn, and the application's world is left as it was. -/
theorem C38_untouched (E : Endpoint K σ) (c : Conn K σ) (t rest : Bytes) (hp : c.phase = .serving)
    (hb : c.buf = 5 :: (t ++ 10 :: rest)) (ht : (10 : UInt8) ∉ t) (hl : t.length < E.limit) :
    step E c .turn = some { c with buf := rest, out := c.out ++ [[6, 10]] } := by
  have h := turn_line (E := E) (lost := false) hp (x := 5 :: t) (rest := rest) (by simp [hb]) (by simp [ht])
  rw [if_neg (by simp; omega)] at h
  have ha : answer E (5 :: t ++ [10]) c.world = (some [6, 10], c.world) := by
    simp [answer, ENQ, ackResponse, ACK, LF]
  rw [ha] at h
  exact h

/-- **C38, transparency.** Heartbeats among the lines change neither the replies to the other lines nor what
the application does: leaving them out gives the same exchange without the ACK lines, ending in the same
state. -/
theorem C38_transparent {E : Endpoint K σ} {ls : List Bytes} {w w' : World K σ} {os : List Bytes}
    (h : Exchange E ls w os w') :
    Exchange E (ls.filter (fun l => ¬ Heartbeat l)) w
      (((ls.zip os).filter (fun p => ¬ Heartbeat p.1)).map Prod.snd) w' := by
  induction h with
  | nil w => exact .nil w
  | cons l ls w o w1 os w2 hr _ ih =>
    by_cases hb : Heartbeat l
    · have : w1 = w := by
        cases hr with
        | heartbeat => rfl
        | request _ _ _ _ hb' => exact absurd hb hb'
      subst this
      simpa [hb] using ih
    · simpa [hb] using Exchange.cons _ _ _ _ _ _ _ hr ih

/-- The datagram server tests for the byte 6 (ACK) instead of 5 (ENQ): whatever its state, an ENQ datagram is
not acknowledged; its text goes to the router, as a request. -/
theorem C38_datagram_refuted (E : Endpoint K σ) (d : Dgram A K σ) (a : A) :
    ∃ d', dstep E d (.receive [5, 10] a) = some d' ∧ d'.sent = d.sent ∧
      d'.tasks = d.tasks ++ [(String.ofList [Char.ofNat 5, Char.ofNat 10], a)] := by
  have hd : decode [5, 10] = some (String.ofList [Char.ofNat 5, Char.ofNat 10]) := by decide +kernel
  refine ⟨_, rfl, ?_⟩
  simp [LF, ACK, hd]

/-! ### C61 -/

/-- **C61.** From the start of a datagram server, whatever arrives and however processing interleaves, as long
as no task is cancelled: the requests that have arrived are those already handled, in order of arrival,
followed by those still waiting; what has been sent is an interleaving of the responses to the handled ones,
each to the sender of its request, and of the immediate acknowledgements. -/
theorem C61_datagrams {E : Endpoint K σ} {w : World K σ} {es : List (DEv A)} {d : Dgram A K σ}
    (hno : DEv.cancel ∉ es) (h : dsteps E ⟨[], [], w⟩ es = some d) :
    ∃ handled out, requests es = handled ++ d.tasks ∧ Answered E handled w out d.world ∧
      Merged out ((pings es).map (fun a => (([6, 10] : Bytes), a))) d.sent := by
  exact dinv_steps (pre := []) es hno (⟨[], [], rfl, .nil _, .nil⟩ : DInv E w [] ⟨[], [], w⟩) h

/-- **C61, exactly one.** When every request can be answered, the responses go to the senders of the requests,
one each, in order. -/
theorem C61_each {E : Endpoint K σ} {w w' : World K σ} {rs : List (String × A)} {out : List (Bytes × A)}
    (hall : ∀ text w, ∃ resp w' s, routeRequest E.server text w = (.ok resp, w') ∧ E.dumps resp = some s)
    (h : Answered E rs w out w') : out.map Prod.snd = rs.map Prod.snd := by
  induction h with
  | nil => rfl
  | response _ _ _ _ _ _ _ _ _ _ _ _ ih => simp [ih]
  | silent text _ _ w r w' _ _ hr hn _ ih =>
    obtain ⟨resp, w1, s, h1, h2⟩ := hall text w
    rw [h1] at hr
    cases hr
    have := hn resp rfl
    rw [h2] at this; cases this

/-- **C61, never stuck.** While requests wait, the next one can be handled. -/
theorem C61_progress (E : Endpoint K σ) (d : Dgram A K σ) (h : d.tasks ≠ []) :
    ∃ d', dstep E d .respond = some d' ∧ d'.tasks = d.tasks.tail := by
  cases ht : d.tasks with
  | nil => exact absurd ht h
  | cons t rest =>
    obtain ⟨text, a⟩ := t
    simp only [dstep, ht]
    rcases routeRequest E.server text d.world with ⟨r | resp, w⟩
    · exact ⟨_, rfl, rfl⟩
    · dsimp only
      cases E.dumps resp with
      | none => exact ⟨_, rfl, rfl⟩
      | some s => exact ⟨_, rfl, rfl⟩

example : ((dsteps exEnd (⟨[], [], exWorld⟩ : Dgram Nat Int Nat)
    [.receive [97, 10] 1, .receive [6, 10] 2, .receive [5, 10] 3, .respond, .receive [98] 4, .receive [255, 10] 5, .respond]).map (fun d => d.sent)) =
    some [([6, 10], 2), ([123, 48, 125], 1), ([123, 49, 125], 3)] := by decide +kernel

end Verif.Stream
