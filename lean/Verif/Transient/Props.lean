import Verif.Transient.Lemmas

/-!
# Connections of transient clients (C98)
-/

namespace Verif.Transient

open Spec

/-- **C98, one message.** Whatever happens, every connection carries the message it was opened for, once, and nothing else. -/
theorem C98_one_message {max : Int} {s : St} (h : Reach max s) : ∀ c ∈ s.conns, c.written = [c.owner] :=
  fun c hc => ((inv_reach h).conn c hc).1

/-- **C98, attempts.** A message is written as many times as connections were opened for it, at most `max_retries` times. -/
theorem C98_attempts {max : Int} {s : St} (h : Reach max s) (i : Nat) : writes s i = openedFor s i ∧ openedFor s i ≤ max.toNat := by
  have hi := inv_reach h
  constructor
  · have : ∀ l : List Conn, (∀ c ∈ l, c.written = [c.owner]) → (l.map (fun c => c.written.count i)).sum = l.countP (fun c => c.owner == i) := by
      intro l
      induction l with
      | nil => intro _; rfl
      | cons c cs ih =>
        intro hl
        rw [List.map_cons, List.sum_cons, ih (fun d hd => hl d (List.mem_cons_of_mem _ hd)), hl c List.mem_cons_self, List.countP_cons]
        by_cases hc : c.owner = i <;> simp [hc, Nat.add_comm]
    exact this _ (fun c hc => (hi.conn c hc).1)
  · by_cases hlt : i < s.calls.length
    · have hf := hi.call i _ (List.getElem?_eq_getElem hlt)
      revert hf
      cases s.calls[i] with
      | opening rc => rintro ⟨a, b, d⟩; omega
      | pausing rc => rintro ⟨a, b, d⟩; omega
      | reading rc c => rintro ⟨a, b, d, -⟩; omega
      | closing rc c => rintro ⟨a, b, d, -⟩; omega
      | over e => exact fun hf => hf.1
    · have : openedFor s i = 0 := by
        unfold openedFor
        rw [List.countP_eq_zero]
        intro c hc
        have := (hi.conn c hc).2.1
        simp only [beq_iff_eq]; omega
      omega

/-- **C98, closed.** A connection is closed the moment a response was read from it; a call that returns a response has read it from a
connection of its own. -/
theorem C98_closed {max : Int} {s : St} (h : Reach max s) :
    (∀ c ∈ s.conns, c.answered = true → c.isOpen = false) ∧
    ∀ i : Nat, s.calls[i]? = some (.over .response) → ∃ c ∈ s.conns, c.owner = i ∧ c.answered = true ∧ c.isOpen = false := by
  have hi := inv_reach h
  refine ⟨fun c hc => (hi.conn c hc).2.2, fun i hr => ?_⟩
  obtain ⟨-, hf⟩ := hi.call i _ hr
  obtain ⟨c, hc, ho, ha⟩ := hf rfl
  exact ⟨c, hc, ho, ha, (hi.conn c hc).2.2 ha⟩

/-- **C98, in use.** While a call awaits its response, the connection it awaits it on is its own, is open and has given no response yet: neither
another call of the same client nor the collector closes it. -/
theorem C98_in_use {max : Int} {s : St} (h : Reach max s) {i c : Nat} {rc : Int} (hr : s.calls[i]? = some (.reading rc c)) :
    ∃ x, s.conns[c]? = some x ∧ x.owner = i ∧ x.answered = false ∧ x.isOpen = true := by
  obtain ⟨-, -, -, x, hx, ho, ha⟩ := (inv_reach h).call i _ hr
  obtain ⟨y, hy, hyo⟩ := inUse_reach h i rc c hr
  rw [hx] at hy
  cases hy
  exact ⟨x, hx, ho, ha, hyo⟩

/-- The first call timed out once, the second is answered, the first connection of the first call is collected; it reads from its second. -/
example : steps 3 new [.send, .send, .opened 0, .opened 1, .readFails 0 .retryable, .line 1, .resume 0, .opened 0, .collected 0] = some
    { success := false, calls := [.reading 1 2, .closing 0 1], conns := [⟨0, [0], false, false⟩, ⟨1, [1], true, false⟩, ⟨0, [0], false, true⟩] } := by decide

/-- **C98, partial.** If nothing fails, there is one connection for every message, open just while the response is awaited, and every call
ends with a response. Missing: attempts that fail, `C98_left_open_refuted`. -/
theorem C98_smooth_partial {max : Int} (hm : 0 < max) {es : List Ev} {s : St} (hes : ∀ e ∈ es, smooth e = true) (h : steps max new es = some s) :
    (∀ (c : Nat) (x : Conn), s.conns[c]? = some x → x.isOpen = true → ∃ rc, s.calls[x.owner]? = some (.reading rc c)) ∧
    (∀ (i : Nat) (e : End), s.calls[i]? = some (.over e) → e = .response ∧ openedFor s i = 1) ∧
    ∀ i, openedFor s i ≤ 1 := by
  have hs := smooth_steps hm es smooth_new hes h
  refine ⟨hs.use, fun i e hi => hs.call i _ hi, fun i => ?_⟩
  by_cases hlt : i < s.calls.length
  · have hg := hs.call i _ (List.getElem?_eq_getElem hlt)
    revert hg
    cases s.calls[i] with
    | opening rc => rintro ⟨-, h⟩; omega
    | pausing rc => rintro ⟨⟩
    | reading rc c => intro (h : _ = _); omega
    | closing rc c => intro (h : _ = _); omega
    | over e => rintro ⟨-, h⟩; omega
  · have : openedFor s i = 0 := by
      unfold openedFor
      rw [List.countP_eq_zero]
      intro c hc
      obtain ⟨k, hk⟩ := List.mem_iff_getElem?.1 hc
      have := hs.bound k c hk
      simp only [beq_iff_eq]; omega
    omega

/-- Two calls at once, one finished. -/
def exSmooth : List Ev := [.send, .send, .opened 1, .opened 0, .line 1, .closed 1]

example : (∀ e ∈ exSmooth, smooth e = true) ∧ steps 3 new exSmooth = some
    { success := true, calls := [.reading 0 1, .over .response], conns := [⟨1, [1], true, false⟩, ⟨0, [0], false, true⟩] } := by decide

/-- **C98, partial.** If closing a connection never fails, a message whose response was received is not written again: the connection that was
answered is the last one opened for the message. Missing: `C98_resent_refuted`. -/
theorem C98_once_partial {max : Int} {es : List Ev} {s : St} (hes : ∀ e ∈ es, closingFails e = false) (h : steps max new es = some s)
    {c c' : Nat} {x x' : Conn} (hc : s.conns[c]? = some x) (ha : x.answered = true) (hc' : s.conns[c']? = some x') (ho : x'.owner = x.owner) :
    c' ≤ c :=
  (once_steps es once_new hes h).last c x hc ha c' x' hc' ho

/-- A first attempt times out, the second is answered. -/
def exSecond : List Ev := [.send, .opened 0, .readFails 0 .retryable, .resume 0, .opened 0, .line 0, .closed 0, .collected 0]

example : (∀ e ∈ exSecond, closingFails e = false) ∧ steps 3 new exSecond = some
    { success := true, calls := [.over .response], conns := [⟨0, [0], false, false⟩, ⟨0, [0], true, false⟩] } := by decide

/-- **C98, refuted.** A response is received, but the connection turns out to be broken while it is being closed: the message is sent again,
and answered again. -/
theorem C98_resent_refuted : ∃ s, steps 3 new [.send, .opened 0, .line 0, .closeFails 0 .retryable, .resume 0, .opened 0, .line 0, .closed 0] = some s ∧
    writes s 0 = 2 ∧ (∀ c ∈ s.conns, c.answered = true) ∧ s.calls = [.over .response] :=
  ⟨{ success := true, calls := [.over .response], conns := [⟨0, [0], true, false⟩, ⟨0, [0], true, false⟩] }, by decide⟩

/-- `n` attempts that time out, after the first connection was asked for. -/
def timeouts : Nat → List Ev
  | 0 => []
  | 1 => [.opened 0, .readFails 0 .retryable]
  | n + 1 => .opened 0 :: .readFails 0 .retryable :: .resume 0 :: timeouts n

theorem timeouts_steps (k n : Nat) : ∀ (m : Nat), m + (n + 1) = k →
    steps k { success := false, calls := [.opening m], conns := List.replicate m ⟨0, [0], false, true⟩ } (timeouts (n + 1)) =
      some { success := false, calls := [.over .maxRetries], conns := List.replicate k ⟨0, [0], false, true⟩ } := by
  induction n with
  | zero =>
    intro m hk
    subst hk
    simp [timeouts, steps, step, St.goto, St.raised, List.replicate_succ']
  | succ n ih =>
    intro m hk
    have h1 : ¬ ((k : Int) ≤ (m : Int) + 1) := by omega
    have h2 : (m : Int) + 1 < k := by omega
    have h3 := ih (m + 1) (by omega)
    simp only [Int.natCast_add, Int.natCast_one] at h3
    simp [timeouts, steps, step, St.goto, St.raised, St.loop, h1, h2]
    rw [← h3, List.replicate_succ']

/-- **C98, refuted.** A call that has ended leaves every connection open that was not answered: after `n` attempts that timed out there are `n`.
Each stays open until the server closes it and the writer is collected. -/
theorem C98_left_open_refuted (n : Nat) : ∃ s, steps (n + 1 : Nat) new (.send :: timeouts (n + 1)) = some s ∧
    s.calls = [.over .maxRetries] ∧ s.conns.length = n + 1 ∧ ∀ c ∈ s.conns, c.isOpen = true := by
  let s : St := { success := false, calls := [.over .maxRetries], conns := List.replicate (n + 1) ⟨0, [0], false, true⟩ }
  refine ⟨s, ?_, rfl, List.length_replicate, fun c hc => by rw [List.eq_of_mem_replicate hc]⟩
  rw [← timeouts_steps (n + 1) n 0 (by omega)]
  have h : (0 : Int) < ((n + 1 : Nat) : Int) := by omega
  simp only [steps, step, St.loop, h, and_self, if_true]
  rfl

end Verif.Transient
