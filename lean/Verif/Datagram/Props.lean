import Verif.Datagram.Lemmas

/-!
# Sockets of datagram clients (C99)
-/

namespace Verif.Datagram

open Spec

/-- **C99, bound.** At no time has a client opened more sockets than messages were sent with it. -/
theorem C99_bound {max : Int} {es : List Ev} {s : St} (h : steps max new es = some s) : s.socks.length ≤ s.calls.length := by
  have := (base_steps (s := new) ⟨Nat.le_refl _, fun _ => rfl⟩ h).1
  unfold total at this
  omega

/-- **C99, kept.** Once a client has a socket, messages sent from then on use it, or one that was already being opened: no more are opened,
whatever happens. -/
theorem C99_kept {max : Int} {es es' : List Ev} {s s' : St} (h : steps max new es = some s) (hs : s.socks ≠ []) (h' : steps max s es' = some s') :
    s'.socks.length ≤ s.socks.length + opening s := by
  have hi : s.initialised = true := by
    cases hb : s.initialised with
    | true => rfl
    | false =>
      have := (base_steps (s := new) ⟨Nat.le_refl _, fun _ => rfl⟩ h).2 hb
      exact absurd (List.length_eq_zero_iff.1 this) hs
  have := (steps_total hi h').2
  unfold total at this
  omega

/-- A message is answered; two more at once. -/
def exOne : List Ev := [.send, .opened 0, .acquire 0, .deliver 0 0, .send, .send, .acquire 2, .timeout 2, .acquire 1, .drop 0 1, .resume 2]

example : steps 3 new exOne = some
    { initialised := true, current := 0, socks := [⟨.live 1, [2]⟩], calls := [.over (.reply 0), .waiting 0 0, .queued 1] } ∧
    ∃ s, steps 3 new (exOne.take 2) = some s ∧ s.socks ≠ [] ∧ opening s = 0 := by
  refine ⟨by decide, ⟨_, rfl, by decide, by decide⟩⟩

/-- **C99, partial.** If no attempt is begun while the first is opening its socket, the client opens one socket at most. Missing: first messages
sent at once, `C99_many_refuted`. -/
theorem C99_one_partial {max : Int} {es : List Ev} {s : St} (ha : Along max alone new es) (h : steps max new es = some s) : s.socks.length ≤ 1 := by
  have := (alone_one (s := new) ⟨by decide, fun _ => rfl⟩ ha h).1
  unfold total at this
  omega

example : Along 3 alone new exOne := by
  simp only [Along, exOne, alone, true_and]
  exact ⟨rfl, rfl, rfl, rfl, trivial⟩

/-- **C99, partial.** Without time-outs every reply is returned to the call whose request it answers, however many sockets were opened and
whatever replies were lost. Missing: time-outs, `C99_late_refuted`. -/
theorem C99_replies_partial {max : Int} {es : List Ev} {s : St} (ht : ∀ e ∈ es, timesOut e = false) (h : steps max new es = some s)
    {r q : Nat} (hr : s.calls[r]? = some (.over (.reply q))) : q = r :=
  (tidy_steps (s := new) ⟨by intro k x hx; simp [new] at hx, by intro r q hr; simp [new] at hr⟩ ht h).got r q hr

/-- **C99, ends.** A call that has ended has a reply or has raised: the loop does not run out without a result. -/
theorem C99_ends {max : Int} (hm : 0 < max) {es : List Ev} {s : St} (h : steps max new es = some s) {r : Nat} {e : End}
    (hr : s.calls[r]? = some (.over e)) : (∃ q, e = .reply q) ∨ e = .maxRetries ∨ e = .nonRetryable := by
  have := lefts_steps hm (s := new) (by intro pc hpc; simp [new] at hpc) h _ (List.mem_of_getElem? hr)
  cases e with
  | reply q => exact .inl ⟨q, rfl⟩
  | nothing => exact absurd rfl this
  | maxRetries => exact .inr (.inl rfl)
  | nonRetryable => exact .inr (.inr rfl)

/-- Two time-outs of three attempts allowed, and a reply. -/
example : ∃ s, steps 3 new [.send, .opened 0, .acquire 0, .timeout 0, .drop 0 0, .resume 0, .acquire 0, .timeout 0, .resume 0, .acquire 0, .deliver 0 1] = some s ∧
    s.calls[0]? = some (.over (.reply 0)) := by
  refine ⟨_, rfl, by decide⟩

/-- Two messages over two sockets. -/
def exTwo : List Ev := [.send, .send, .opened 1, .acquire 1, .opened 0, .deliver 0 0, .acquire 0, .deliver 1 0]

example : (∀ e ∈ exTwo, timesOut e = false) ∧ steps 3 new exTwo = some
    { initialised := true, current := 1, socks := [⟨.none, []⟩, ⟨.none, []⟩], calls := [.over (.reply 0), .over (.reply 1)] } := by decide

/-- **C99, refuted.** Of two calls the first times out after its request was sent and gives up; its late reply is returned to the second. -/
theorem C99_late_refuted : ∃ s, steps 1 new [.send, .send, .opened 0, .opened 1, .acquire 0, .timeout 0, .acquire 1, .deliver 1 0] = some s ∧
    s.calls[1]? = some (.over (.reply 0)) := by
  refine ⟨_, rfl, by decide⟩

/-- Calls `k` to `k + n - 1` get their sockets. -/
def openings (k : Nat) : Nat → List Ev
  | 0 => []
  | n + 1 => .opened k :: openings (k + 1) n

theorem sends_steps {max : Int} (hm : 0 < max) (n : Nat) : ∀ (m : Nat) (es : List Ev),
    steps max { new with calls := List.replicate m (.opening 0) } (List.replicate n .send ++ es) =
      steps max { new with calls := List.replicate (m + n) (.opening 0) } es := by
  induction n with
  | zero => intro m es; rfl
  | succ n ih =>
    intro m es
    rw [List.replicate_succ, List.cons_append, steps]
    have : step max { new with calls := List.replicate m (.opening 0) } .send = some { new with calls := List.replicate (m + 1) (.opening 0) } := by
      simp [step, St.loop, hm, St.goto, new, List.replicate_succ']
    rw [this]
    simp only []
    rw [ih (m + 1) es]
    rw [Nat.add_right_comm, Nat.add_assoc]

theorem openings_steps {max : Int} (n : Nat) : ∀ (k : Nat) (s : St), s.socks.length = k →
    s.calls = List.replicate k (.queued 0) ++ List.replicate n (.opening 0) →
    ∃ s', steps max s (openings k n) = some s' ∧ s'.socks.length = k + n ∧ s'.calls = List.replicate (k + n) (.queued 0) := by
  induction n with
  | zero => intro k s hs hc; exact ⟨s, rfl, by simpa using hs, by simpa using hc⟩
  | succ n ih =>
    intro k s hs hc
    have hk : s.calls[k]? = some (.opening 0) := by
      rw [hc, List.getElem?_append_right (by simp)]; simp
    obtain ⟨s', h1, h2, h3⟩ := ih (k + 1)
      (St.goto { s with initialised := true, current := s.socks.length, socks := s.socks ++ [⟨.none, []⟩] } k (.queued 0))
      (by simp [St.goto, hs])
      (by
        simp only [St.goto, hc]
        rw [List.set_append_right _ _ (by simp)]
        rw [List.replicate_succ' (n := k), List.append_assoc, List.length_replicate, Nat.sub_self, List.replicate_succ (n := n)]
        rfl)
    refine ⟨s', ?_, by omega, by rw [h3]; congr 1; omega⟩
    rw [openings, steps]
    have : step max s (.opened k) = some (St.goto { s with initialised := true, current := s.socks.length, socks := s.socks ++ [⟨.none, []⟩] } k (.queued 0)) := by
      simp only [step, hk]
    rw [this]
    exact h1

/-- **C99, refuted.** `n` first messages sent at once open `n` sockets; only the last one is `protocol`, and no code closes the others. -/
theorem C99_many_refuted {max : Int} (hm : 0 < max) (n : Nat) : ∃ s, steps max new (List.replicate n .send ++ openings 0 n) = some s ∧
    s.socks.length = n ∧ s.calls = List.replicate n (.queued 0) := by
  have := sends_steps hm n 0 (openings 0 n)
  obtain ⟨s, h1, h2, h3⟩ := openings_steps (max := max) n 0 { new with calls := List.replicate (0 + n) (.opening 0) } rfl (by simp)
  refine ⟨s, ?_, by omega, by simpa using h3⟩
  rw [← h1, ← this]
  rfl

end Verif.Datagram
