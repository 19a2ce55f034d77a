import Mathlib.Algebra.Order.Ring.Rat
import Mathlib.Tactic.Linarith
import Mathlib.Tactic.NormNum
import Mathlib.Tactic.Ring

/-!
# C117 for transient stream clients

`StreamClientBase._send_message` and `_send_message_retry_loop`, ekosis/clients/stream_client_base.py ("sc") 36-68: how long a send takes. Every send has a connection of its own and no lock, so that
one send can be looked at alone (C45 has what sends at the same time do to each other).
-/

namespace Verif.Wait

/-- How an attempt ends: with a response; with an error that is worth another attempt (sc 53-59), among them the `TimeoutError` of a connection that could not be made; with any other error (sc 67-68). -/
inductive Ending where
  | response
  | again
  | error
  deriving DecidableEq

/-- What an attempt takes: `open_connection` (sc 37; `asyncio.open_connection` and `open_unix_connection`, for which no time-out is set); reading, which `wait_for` ends (sc 40); `wait_closed` after a response (sc 46). -/
structure Attempt where
  connect : ℚ
  read : ℚ
  close : ℚ
  ending : Ending
  deriving DecidableEq

/-- `_send_message`, sc 36-47. -/
def Attempt.time (a : Attempt) : ℚ :=
  match a.ending with
  | .response => a.connect + a.read + a.close
  | _ => a.connect + a.read

/-- The loop of sc 50-68: the attempts made, and the time the call takes; `none` when it goes on beyond the attempts given. -/
def sendLoop (delay : ℚ) (max : Nat) : Nat → List Attempt → Option (Nat × ℚ)
  | rc, as =>
    if rc < max then
      match as with
      | [] => none
      | a :: as =>
        match a.ending with
        | .response => some (1, a.time)
        | .error => some (1, a.time)
        | .again =>
          if rc + 1 ≥ max then some (1, a.time)
          else (sendLoop delay max (rc + 1) as).map fun r => (r.1 + 1, a.time + delay + r.2)
    else some (0, 0)
termination_by _ as => as.length

/-- `wait_for` does its work. -/
def Timely (timeout late : ℚ) (a : Attempt) : Prop := 0 ≤ a.connect ∧ 0 ≤ a.close ∧ 0 ≤ a.read ∧ a.read ≤ timeout + late

/-- **C117, transient clients, partial.** When connecting takes at most `c`, and closing at most `x`, a send ends within `max_retries` times the time-out and `c`, the delays, and `x`. Missing: connecting and
closing are not limited by the time-out, see `C117_connect_refuted`. -/
theorem C117_transient_partial {timeout delay late c x : ℚ} (hT : 0 ≤ timeout) (hD : 0 ≤ delay) (hL : 0 ≤ late) (hc : 0 ≤ c) (hx : 0 ≤ x) (max : Nat) (as : List Attempt)
    (ha : ∀ a ∈ as, Timely timeout late a ∧ a.connect ≤ c ∧ a.close ≤ x) {k : Nat} {d : ℚ} (h : sendLoop delay max 0 as = some (k, d)) (hm : 0 < max) :
    k ≤ max ∧ d ≤ max * (c + timeout + late) + (max - 1 : ℚ) * delay + x := by
  have key : ∀ (as : List Attempt) (rc k : Nat) (d : ℚ), rc < max → (∀ a ∈ as, Timely timeout late a ∧ a.connect ≤ c ∧ a.close ≤ x) →
      sendLoop delay max rc as = some (k, d) → k + rc ≤ max ∧ d ≤ (max - rc : ℚ) * (c + timeout + late) + (max - rc - 1 : ℚ) * delay + x := by
    intro as
    induction as with
    | nil => intro rc k d hr _ h; unfold sendLoop at h; rw [if_pos hr] at h; cases h
    | cons a as ih =>
      intro rc k d hr ha h
      obtain ⟨⟨a1, a2, a3, a4⟩, a5, a6⟩ := ha a (by simp)
      have hq : ((rc : ℚ) + 1) ≤ max := by exact_mod_cast hr
      have hS : 0 ≤ c + timeout + late := by linarith
      have one : a.time ≤ c + timeout + late + x := by
        unfold Attempt.time
        split <;> linarith
      have last : a.time ≤ (max - rc : ℚ) * (c + timeout + late) + (max - rc - 1 : ℚ) * delay + x := by
        have h1 : 0 ≤ (max - rc - 1 : ℚ) * (c + timeout + late) := mul_nonneg (by linarith) hS
        have h2 : 0 ≤ (max - rc - 1 : ℚ) * delay := mul_nonneg (by linarith) hD
        have e : (max - rc : ℚ) * (c + timeout + late) = (max - rc - 1 : ℚ) * (c + timeout + late) + (c + timeout + late) := by ring
        linarith
      unfold sendLoop at h
      rw [if_pos hr] at h
      simp only at h
      cases he : a.ending with
      | response => rw [he] at h; cases h; exact ⟨by omega, last⟩
      | error => rw [he] at h; cases h; exact ⟨by omega, last⟩
      | again =>
        rw [he] at h
        simp only at h
        split at h
        · cases h; exact ⟨by omega, last⟩
        · rename_i hmax
          cases hl : sendLoop delay max (rc + 1) as with
          | none => rw [hl] at h; cases h
          | some r =>
            obtain ⟨k', d'⟩ := r
            rw [hl] at h
            cases h
            obtain ⟨h1, h2⟩ := ih (rc + 1) k' d' (by omega) (fun b hb => ha b (by simp [hb])) hl
            refine ⟨by simp only; omega, ?_⟩
            push_cast at h2
            have ht : a.time ≤ c + timeout + late := by
              unfold Attempt.time
              rw [he]
              simp only
              linarith
            have e1 : (max - rc : ℚ) * (c + timeout + late) = (max - (rc + 1) : ℚ) * (c + timeout + late) + (c + timeout + late) := by ring
            have e2 : (max - rc - 1 : ℚ) * delay = (max - (rc + 1) - 1 : ℚ) * delay + delay := by ring
            simp only
            linarith
  have := key as 0 k d hm ha h
  simpa using this

/-- **C117 is false of the code for stream clients.** Nothing limits the time for connecting: a host that drops all packets makes each attempt take as long as the system tries (`c`, minutes), it then raises
`TimeoutError`, which is worth another attempt. A send takes `max_retries` times that, whatever the time-out. -/
theorem C117_connect_refuted (timeout delay c : ℚ) (hT : 0 ≤ timeout) (hc : 0 ≤ c) (max : Nat) :
    ∃ as, (∀ a ∈ as, Timely timeout 0 a) ∧ sendLoop delay (max + 1) 0 as = some (max + 1, (max + 1) * c + max * delay) := by
  refine ⟨List.replicate (max + 1) ⟨c, 0, 0, .again⟩, ?_, ?_⟩
  · intro a ha
    rw [List.eq_of_mem_replicate ha]
    exact ⟨hc, le_refl _, le_refl _, by simpa using hT⟩
  · have key : ∀ m rc, rc + m = max → sendLoop delay (max + 1) rc (List.replicate (m + 1) ⟨c, 0, 0, .again⟩) = some (m + 1, (m + 1) * c + m * delay) := by
      intro m
      induction m with
      | zero =>
        intro rc h
        unfold sendLoop
        rw [if_pos (by omega)]
        simp only [List.replicate_succ, List.replicate_zero]
        rw [if_pos (by omega)]
        simp [Attempt.time]
      | succ m ih =>
        intro rc h
        unfold sendLoop
        rw [if_pos (by omega), List.replicate_succ]
        simp only
        rw [if_neg (by omega), ih (rc + 1) (by omega)]
        simp only [Option.map_some, Option.some.injEq, Prod.mk.injEq, true_and]
        simp only [Attempt.time]
        push_cast
        ring
    have := key max 0 (by omega)
    exact this

/-- Three attempts of two minutes each, with a time-out of five seconds; and a send that gets its response at the second attempt. -/
example : sendLoop (1 / 10) 3 0 (List.replicate 3 ⟨120, 0, 0, .again⟩) = some (3, 3602 / 10) ∧
    sendLoop (1 / 10) 3 0 [⟨1, 5, 0, .again⟩, ⟨1, 2, 1, .response⟩] = some (2, 101 / 10) := by
  refine ⟨?_, ?_⟩ <;> norm_num [sendLoop, Attempt.time, List.replicate]

example : ∀ a ∈ [(⟨1, 5, 0, .again⟩ : Attempt), ⟨1, 2, 1, .response⟩], Timely 5 0 a ∧ a.connect ≤ 1 ∧ a.close ≤ 1 := by
  simp [Timely]; norm_num

end Verif.Wait
