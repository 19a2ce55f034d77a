import Verif.Over.Model
import Verif.Stream.Acted

/-!
# C115: what becomes of a request that is too long for the server

A stream server reads lines up to a limit. A request that is longer should be an error of its own, found at once: the application does not see it, its sender is told, and
it is not sent again, since it cannot fare better.
-/

namespace Verif.Over

open Verif.Stream Verif.Stream.Spec Verif.Client Verif.Server

variable {K σ β : Type}

/-! ### Specification -/

/-- A request line that the server cannot read: `x` and the newline. -/
structure TooLong (limit : Nat) (x : Bytes) : Prop where
  line : (10 : UInt8) ∉ x
  long : limit < x.length

/-- On this connection the client wrote the lines `prev`, all of which it has had replies to, then `x` with its newline, and perhaps more (the same again, after a
time-out). Some of these bytes, in any pieces, have reached the server, which has done what it has done with them. -/
structure Written (E : Endpoint K σ) (w : World K σ) (prev : List Bytes) (x : Bytes) (c : Conn K σ) : Prop where
  lines : ∀ l ∈ prev, ∃ y, l = y ++ [10] ∧ (10 : UInt8) ∉ y
  run : ∃ es more, steps E (accept true w) es = some c ∧ received es <+: prev.flatten ++ (x ++ 10 :: more)

/-- `a` is what an attempt to send `x` came to. -/
def Tried (E : Endpoint K σ) (x : Bytes) (a : Attempt) : Prop :=
  ∃ w prev c how, Written E w prev x c ∧ attempt c prev.length how = some a

/-- The server can be reached again, should the connection have ended. -/
def Reachable : Attempt → Prop
  | .broken re => re = true
  | .empty re => re = true
  | _ => True

/-! ### Lemmas -/

theorem lines_split (b : Bytes) : (∀ l ∈ (lines b).1, IsLine l) ∧ b = (lines b).1.flatten ++ (lines b).2 := by
  induction hn : b.length using Nat.strong_induction_on generalizing b with
  | _ n ih =>
    rcases split_line b with hb | ⟨x, rest, rfl, hx⟩
    · rw [lines_of_not_mem b hb]; simp
    · rw [lines_line x rest hx]
      obtain ⟨h1, h2⟩ := ih rest.length (by rw [← hn]; simp; omega) rest rfl
      refine ⟨?_, ?_⟩
      · intro l hl
        rcases List.mem_cons.1 hl with rfl | hl
        · exact ⟨x, rfl, hx⟩
        · exact h1 l hl
      · simp only [List.flatten_cons, List.append_assoc, ← h2]; simp

theorem lines_mono {a b : Bytes} (h : a <+: b) : (lines a).1 <+: (lines b).1 := by
  obtain ⟨t, rfl⟩ := h
  obtain ⟨h1, h2⟩ := lines_split a
  have : lines (a ++ t) = ((lines a).1 ++ (lines ((lines a).2 ++ t)).1, (lines ((lines a).2 ++ t)).2) := by
    conv => lhs; rw [h2]
    rw [List.append_assoc, lines_flatten _ h1]
  rw [this]
  exact List.prefix_append _ _

theorem maxRetries_of (max : Int) (as : List Attempt) (h : ∀ a ∈ as, Reachable a ∧ ((∃ re, a = .broken re ∨ a = .empty re) ∨ a = .timeout)) :
    ∀ rc : Int, rc < max → max - rc ≤ as.length → persistentLoop max rc (as.map (fun a => (false, a))) = (.raised .maxRetries, (max - rc).toNat) := by
  induction as with
  | nil => intro rc h1 h2; simp at h2; omega
  | cons a as ih =>
    intro rc h1 h2
    have hrest := ih (fun b hb => h b (List.mem_cons_of_mem _ hb)) (rc + 1)
    have fin : ∀ r : End × Nat, r = (if rc + 1 ≥ max then (End.raised .maxRetries, 0) else persistentLoop max (rc + 1) (as.map (fun a => (false, a)))) →
        count r = (.raised .maxRetries, (max - rc).toNat) := by
      rintro r rfl
      by_cases hm : rc + 1 ≥ max
      · rw [if_pos hm]; simp only [count]; congr 1; omega
      · rw [if_neg hm, hrest (by omega) (by simp at h2; omega)]; simp only [count]; congr 1; omega
    simp only [List.map_cons, persistentLoop]
    rw [if_pos ⟨h1, trivial⟩]
    obtain ⟨hr, ⟨re, rfl | rfl⟩ | rfl⟩ := h a (List.mem_cons_self ..)
    · cases (show re = true from hr); exact fin _ rfl
    · cases (show re = true from hr); exact fin _ rfl
    · exact fin _ rfl

theorem maxRetries_of_transient (max : Int) (as : List Attempt) (h : ∀ a ∈ as, (∃ re, a = .broken re) ∨ a = .timeout) :
    ∀ rc : Int, rc < max → max - rc ≤ as.length → transientLoop max rc (as.map (fun a => (false, a))) = (.raised .maxRetries, (max - rc).toNat) := by
  induction as with
  | nil => intro rc h1 h2; simp at h2; omega
  | cons a as ih =>
    intro rc h1 h2
    have hrest := ih (fun b hb => h b (List.mem_cons_of_mem _ hb)) (rc + 1)
    have fin : ∀ r : End × Nat, r = (if rc + 1 ≥ max then (End.raised .maxRetries, 0) else transientLoop max (rc + 1) (as.map (fun a => (false, a)))) →
        count r = (.raised .maxRetries, (max - rc).toNat) := by
      rintro r rfl
      by_cases hm : rc + 1 ≥ max
      · rw [if_pos hm]; simp only [count]; congr 1; omega
      · rw [if_neg hm, hrest (by omega) (by simp at h2; omega)]; simp only [count]; congr 1; omega
    simp only [List.map_cons, transientLoop]
    rw [if_pos ⟨h1, trivial⟩]
    rcases h a (List.mem_cons_self ..) with ⟨re, rfl⟩ | rfl
    · exact fin _ rfl
    · exact fin _ rfl

/-! ### Theorems -/

/-- **C115, the application.** Whatever part of the request has arrived, in whatever pieces: the application has seen at most the lines before it, and only they have been
answered. -/
theorem C115_unseen {E : Endpoint K σ} {w : World K σ} {prev : List Bytes} {x : Bytes} {c : Conn K σ} (hx : TooLong E.limit x) (h : Written E w prev x c) :
    c.out.length ≤ prev.length ∧ Trace E prev w c.out (decide (c.phase = .serving)) c.world := by
  obtain ⟨es, more, hrun, hrec⟩ := h.run
  have hall : (lines (received es)).1 <+: prev ++ (lines (x ++ 10 :: more)).1 := by
    have := lines_mono hrec
    rwa [lines_flatten prev h.lines] at this
  rw [lines_line x more hx.line] at hall
  have cut : ∀ d : List Bytes, d <+: (lines (received es)).1 → (∀ l ∈ d, l.length ≤ E.limit + 1) → d <+: prev := by
    intro d hd hs
    have hp := hd.trans hall
    have hlen : d.length ≤ prev.length := by
      refine Nat.le_of_not_lt fun hlt => ?_
      obtain ⟨t, ht⟩ := hp
      have he : (prev ++ (x ++ [10]) :: (lines more).1)[prev.length]? = some (x ++ [10]) := by simp
      rw [← ht, List.getElem?_append_left hlt] at he
      have := hs _ (List.mem_of_getElem? he)
      have := hx.long
      simp at *
      omega
    exact List.prefix_of_prefix_length_le hp (List.prefix_append _ _) hlen
  obtain ⟨done, w1, hp, hex, hlen, hw⟩ := C113_acted true hrun
  refine ⟨?_, done, w1, cut done hp hlen, hex, hlen, ?_⟩
  · rw [hex.length]; exact (cut done hp hlen).length_le
  · rcases hw with hw | ⟨hs, l, text, hp', hl, hw⟩
    · exact .inl hw
    · refine .inr ⟨hs, l, text, cut _ hp' ?_, hl, hw⟩
      intro y hy
      rcases List.mem_append.1 hy with hy | hy
      · exact hlen y hy
      · rw [List.mem_singleton.1 hy]; exact hl

/-- **C115, the client.** No attempt is answered: each ends in a time-out or with the end of the connection. -/
theorem C115_unanswered {E : Endpoint K σ} {x : Bytes} (hx : TooLong E.limit x) {a : Attempt} (h : Tried E x a) :
    (∃ re, a = .broken re ∨ a = .empty re) ∨ a = .timeout := by
  obtain ⟨w, prev, c, how, hw, ha⟩ := h
  have hn : c.out[prev.length]? = none := List.getElem?_eq_none_iff.2 (C115_unseen hx hw).1
  cases how with
  | timeOut =>
    simp only [attempt, hn, Option.some.injEq] at ha
    exact .inr ha.symm
  | read reset re =>
    simp only [attempt, hn] at ha
    cases hp : c.phase with
    | serving => rw [hp] at ha; cases ha
    | ignored => rw [hp] at ha; cases ha
    | closed =>
      rw [hp] at ha
      cases reset <;> cases ha
      · exact .inl ⟨re, .inr rfl⟩
      · exact .inl ⟨re, .inl rfl⟩
    | crashed =>
      rw [hp] at ha
      cases reset <;> cases ha
      · exact .inl ⟨re, .inr rfl⟩
      · exact .inl ⟨re, .inl rfl⟩

/-- **C115, an error.** A stream client's `send_message` never returns a response to such a request. -/
theorem C115_failed {E : Endpoint K σ} {x : Bytes} (hx : TooLong E.limit x) (L : Lib β) {kind : Kind} (hk : kind ≠ .datagram) (max : Int)
    {as : List (Bool × Attempt)} (h : ∀ a ∈ as, Tried E x a.2) (v : β) : sendMessage L kind max as ≠ some (.ok v) := by
  have noValue : ∀ (as : List (Bool × Attempt)), (∀ a ∈ as, Tried E x a.2) → ∀ rc : Int, ∀ s,
      (transientLoop max rc as).1 ≠ .value s ∧ (persistentLoop max rc as).1 ≠ .value s := by
    intro as
    induction as with
    | nil => intro _ rc s; simp [transientLoop, persistentLoop]
    | cons a as ih =>
      intro h rc s
      obtain ⟨b, a⟩ := a
      obtain ⟨i1, i2⟩ := ih (fun c hc => h c (List.mem_cons_of_mem _ hc)) (rc + 1) s
      have ha := C115_unanswered hx (h _ (List.mem_cons_self ..))
      simp only at ha
      simp only [transientLoop, persistentLoop]
      by_cases hc : rc < max ∧ b = false
      · rw [if_pos hc, if_pos hc]
        by_cases hm : rc + 1 ≥ max
        · rcases ha with ⟨re, rfl | rfl⟩ | rfl
          · cases re <;> simp [count, hm]
          · cases re <;> simp [count, hm]
          · simp [count, hm]
        · rcases ha with ⟨re, rfl | rfl⟩ | rfl
          · cases re <;> simp [count, hm, i1, i2]
          · cases re <;> simp [count, hm, i2]
          · simp [count, hm, i1, i2]
      · rw [if_neg hc, if_neg hc]; simp
  have key : ∀ r : End × Nat, (∀ s, r.1 ≠ .value s) → (match r.1 with
      | .value s => some (interpret L (some s))
      | .nothing => some (interpret L none)
      | .raised e => some (.error e)
      | .pending => none) ≠ some (.ok v) := by
    rintro ⟨e, n⟩ hr
    cases e with
    | value s => exact absurd rfl (hr s)
    | nothing => simp [interpret]
    | raised e => simp
    | pending => simp
  cases kind with
  | datagram => exact absurd rfl hk
  | transient => exact key _ fun s => (noValue as h 0 s).1
  | persistent => exact key _ fun s => (noValue as h 0 s).2

/-- **C115, the part that holds.** A transient client that finds the connection ended, and not reset, gives up at once: one attempt, and an error that buffered senders do not
count as worth another try. Missing: connections that are reset, time-outs, and persistent clients (`C115_again_refuted`). -/
theorem C115_once_partial {E : Endpoint K σ} {w : World K σ} {x : Bytes} {c : Conn K σ} (hx : TooLong E.limit x) (h : Written E w [] x c) {re : Bool}
    {a : Attempt} (ha : attempt c 0 (.read false re) = some a) (L : Lib β) {max : Int} (hm : 1 ≤ max) (more : List (Bool × Attempt)) (text : Err → String) :
    retryLoop .transient max ((false, a) :: more) = (.raised .nonRetryable, 1) ∧
    (sendMessage L .transient max ((false, a) :: more)).map (outcomeOf text) = some (.fatal (text .nonRetryable)) := by
  have hn : c.out[0]? = none := List.getElem?_eq_none_iff.2 (C115_unseen hx h).1
  have he : a = .empty re := by
    simp only [attempt, hn] at ha
    cases hp : c.phase with
    | serving => rw [hp] at ha; cases ha
    | ignored => rw [hp] at ha; cases ha
    | closed => rw [hp] at ha; cases ha; rfl
    | crashed => rw [hp] at ha; cases ha; rfl
  subst he
  have h1 : retryLoop .transient max ((false, .empty re) :: more) = (.raised .nonRetryable, 1) := by
    simp only [retryLoop, transientLoop]
    rw [if_pos ⟨by omega, trivial⟩]
    rfl
  refine ⟨h1, ?_⟩
  simp only [sendMessage, h1]
  rfl

/-- **C115 is false of the code: it is sent again.** For every server and every request that is too long for it, a server that has received all of it ends the connection;
and whatever the attempts come to, as long as the server can be reached, a persistent client sends the request `max_retries` times and then says
`CommunicationsMaxRetriesReached`. A buffered sender takes this for an error worth another try, and sends it as often again. So does a transient client whose connections are
reset. -/
theorem C115_again_refuted (E : Endpoint K σ) {x : Bytes} (hx : TooLong E.limit x) :
    (∀ w : World K σ, ∃ c, Written E w [] x c ∧ c.world = w ∧
      ∀ reset, attempt c 0 (.read reset true) = some (if reset then .broken true else .empty true)) ∧
    ∀ (L : Lib β) (text : Err → String) (max : Nat) (as : List Attempt), 1 ≤ max → max ≤ as.length →
      ((∀ a ∈ as, Tried E x a ∧ Reachable a) →
        retryLoop .persistent max (as.map (fun a => (false, a))) = (.raised .maxRetries, max) ∧
        (sendMessage L .persistent max (as.map (fun a => (false, a)))).map (outcomeOf text) = some .retry) ∧
      ((∀ a ∈ as, Tried E x a ∧ ∀ re, a ≠ .empty re) →
        retryLoop .transient max (as.map (fun a => (false, a))) = (.raised .maxRetries, max) ∧
        (sendMessage L .transient max (as.map (fun a => (false, a)))).map (outcomeOf text) = some .retry) := by
  refine ⟨?_, ?_⟩
  · intro w
    have ht := turn_line (E := E) (lost := false) (c := ⟨x ++ 10 :: [], false, .serving, [], w⟩) rfl (x := x) (rest := []) rfl hx.line
    rw [if_pos hx.long] at ht
    refine ⟨⟨x ++ [10], false, .crashed, [], w⟩, ⟨by simp, [.feed (x ++ [10]), .turn], [], ?_, by simp [received]⟩, ?_, ?_⟩
    · rw [first_feed, first_turn E _ _ _ ht]; rfl
    · rfl
    · intro reset; rfl
  · intro L text max as h1 h2
    refine ⟨?_, ?_⟩
    · intro h
      have hl : retryLoop .persistent max (as.map (fun a => (false, a))) = (.raised .maxRetries, max) := by
        have := maxRetries_of (max : Int) as (fun a ha => ⟨(h a ha).2, C115_unanswered hx (h a ha).1⟩) 0 (by omega) (by omega)
        simpa [retryLoop] using this
      refine ⟨hl, ?_⟩
      simp only [sendMessage, hl]
      rfl
    · intro h
      have hl : retryLoop .transient max (as.map (fun a => (false, a))) = (.raised .maxRetries, max) := by
        have := maxRetries_of_transient (max : Int) as (fun a ha => by
          rcases C115_unanswered hx (h a ha).1 with ⟨re, h' | h'⟩ | h'
          · exact .inl ⟨re, h'⟩
          · exact absurd h' ((h a ha).2 re)
          · exact .inr h') 0 (by omega) (by omega)
        simpa [retryLoop] using this
      refine ⟨hl, ?_⟩
      simp only [sendMessage, hl]
      rfl

/-! ### Cases -/

/-- Nine letters, for the example server, which reads lines of up to eight. -/
def exX : Bytes := [98, 98, 98, 98, 98, 98, 98, 98, 98]

example : TooLong exEnd.limit exX := ⟨by decide, by decide⟩

/-- A request that is answered, then the long one, of which all arrives. -/
def exRun : List Ev := [.feed [97, 10], .turn, .feed exX, .turn, .feed [10]]

example : ∃ c, Written exEnd exWorld [[97, 10]] exX c ∧ c.out = [[123, 48, 125, 10]] ∧ attempt c 1 (.read false true) = some (.empty true) ∧
    attempt c 1 (.read true false) = some (.broken false) ∧ attempt c 1 .timeOut = some .timeout ∧
    attempt c 0 (.read false true) = some (.reply "{0}\n") := by
  have h : ∃ c, steps exEnd (accept true exWorld) exRun = some c := Option.isSome_iff_exists.1 (by decide +kernel)
  obtain ⟨c, hc⟩ := h
  have hq : ((steps exEnd (accept true exWorld) exRun).map (fun c => (c.out, c.phase))) = some ([[123, 48, 125, 10]], .crashed) := by decide +kernel
  rw [hc] at hq
  simp only [Option.map_some, Option.some.injEq, Prod.mk.injEq] at hq
  refine ⟨c, ⟨by intro l hl; rw [List.mem_singleton.1 hl]; exact ⟨[97], rfl, by decide⟩, exRun, [], hc, by decide⟩, hq.1, ?_, ?_, ?_, ?_⟩
  · simp [attempt, hq.1, hq.2]
  · simp [attempt, hq.1, hq.2]
  · simp [attempt, hq.1]
  · have hd : decode [123, 48, 125, 10] = some "{0}\n" := by decide +kernel
    simp [attempt, hq.1, hd]

/-- What the sender of the request sees, with three retries. -/
example : retryLoop .persistent 3 [(false, .empty true), (false, .timeout), (false, .broken true), (false, .empty true)] = (.raised .maxRetries, 3) ∧
    retryLoop .transient 3 [(false, .empty true)] = (.raised .nonRetryable, 1) ∧
    retryLoop .transient 3 [(false, .broken true), (false, .broken true), (false, .broken true)] = (.raised .maxRetries, 3) := by decide

end Verif.Over
