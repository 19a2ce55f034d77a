import Verif.Size.Model

/-!
# C110: what a datagram too long does

Of requests and responses that fit in a datagram, one is sent and one comes back. Of others, one would expect an error that says so, and that the
endpoint is not called again and again.
-/

namespace Verif.Size

open Verif.Stream

variable {W : Type}

/-- A request as clients write it: it ends in a newline and does not begin with the byte of a heartbeat. -/
def IsRequest (d : Bytes) : Prop := d.getLast? = some 10 ∧ d.head? ≠ some 6

/-- The application after the endpoint ran `n` times on `d`. -/
def ran (endpoint : Bytes → W → Bytes × W) (d : Bytes) (w : W) : Nat → W
  | 0 => w
  | n + 1 => (endpoint d (ran endpoint d w n)).2

/-- **C110, what fits (partial: what does not fit is missing, see the refutations).** A request that fits, whose response fits and is not empty: the
endpoint runs once, its response comes back, and nobody waits for a time-out. Through a buffered sender too. -/
theorem C110_fits_partial (endpoint : Bytes → W → Bytes × W) (max smax : Nat) (hm : 0 < max) {d : Bytes} (hd : IsRequest d) (w : W)
    (h1 : d.length ≤ 65507) (h2 : (endpoint d w).1.length ≤ 65507) (h3 : (endpoint d w).1 ≠ []) :
    send 65507 endpoint max d w = (.reply (endpoint d w).1, (endpoint d w).2, 0) ∧
    bufferedSend 65507 endpoint max smax d w = (.sent (endpoint d w).1, (endpoint d w).2, 0) := by
  have ha : attempt 65507 endpoint d w = (some (endpoint d w).1, (endpoint d w).2) := by
    have hne : d ≠ [] := by intro e; rw [e] at hd; cases hd.1
    have e1 : sendto 65507 d = some d := by
      simp only [sendto, List.isEmpty_iff]
      rw [if_neg hne, if_neg (by omega)]
    have e2 : sendto 65507 (endpoint d w).1 = some (endpoint d w).1 := by
      simp only [sendto, List.isEmpty_iff]
      rw [if_neg h3, if_neg (by omega)]
    simp only [attempt, e1, serve, hd.1, LF, if_true]
    rw [if_neg (show ¬ d.head? = some ACK from hd.2)]
    simp only [e2]
  have hs : send 65507 endpoint max d w = (.reply (endpoint d w).1, (endpoint d w).2, 0) := by
    simp only [send, retryLoop, hm, if_true, ha]
  exact ⟨hs, by simp only [bufferedSend, senderLoop, hs]⟩

/-- Attempts that fail whatever state the endpoint left: the loop makes all of them. -/
theorem retryLoop_fails (limit : Nat) (endpoint : Bytes → W → Bytes × W) (max : Nat) (d : Bytes) (f : W → W)
    (hf : ∀ w, attempt limit endpoint d w = (none, f w)) : ∀ n rc w, rc < max → max - rc ≤ n →
      retryLoop limit endpoint max d n rc w = (.maxRetries, Nat.repeat f (max - rc) w, max - rc) := by
  intro n
  induction n with
  | zero => intro rc w h1 h2; omega
  | succ n ih =>
    intro rc w h1 h2
    simp only [retryLoop, h1, if_true, hf]
    by_cases hc : rc + 1 ≥ max
    · rw [if_pos hc]
      have : max - rc = 1 := by omega
      rw [this]; rfl
    · rw [if_neg hc, ih (rc + 1) (f w) (by omega) (by omega)]
      have e : max - rc = (max - (rc + 1)) + 1 := by omega
      rw [e]
      have comm : ∀ k w, Nat.repeat f k (f w) = Nat.repeat f (k + 1) w := by
        intro k
        induction k with
        | zero => intro w; rfl
        | succ k ih => intro w; exact congrArg f (ih w)
      rw [comm]

theorem repeat_add (f : W → W) (m n : Nat) (w : W) : Nat.repeat f n (Nat.repeat f m w) = Nat.repeat f (m + n) w := by
  induction n with
  | zero => rfl
  | succ n ih => exact congrArg f ih

/-- Sending that always comes to its last attempt in vain: the sender tries `max(1, smax)` times. -/
theorem senderLoop_fails (limit : Nat) (endpoint : Bytes → W → Bytes × W) (max smax : Nat) (d : Bytes) (f : W → W) (k : Nat)
    (hf : ∀ w, send limit endpoint max d w = (.maxRetries, Nat.repeat f k w, k)) : ∀ n r w, (r < smax ∨ r = 0) → smax - r ≤ n → 0 < n →
      senderLoop limit endpoint max smax d n r w =
        (.maxRetries, Nat.repeat f (k * (if smax - r = 0 then 1 else smax - r)) w, k * (if smax - r = 0 then 1 else smax - r)) := by
  intro n
  induction n with
  | zero => intro r w _ _ h; omega
  | succ n ih =>
    intro r w h1 h2 _
    simp only [senderLoop, hf]
    by_cases hc : r + 1 ≥ smax
    · rw [if_pos hc]
      have e : (if smax - r = 0 then 1 else smax - r) = 1 := by split <;> omega
      rw [e, Nat.mul_one]
    · rw [if_neg hc, ih (r + 1) _ (by omega) (by omega) (by omega)]
      have e : (if smax - r = 0 then 1 else smax - r) = (if smax - (r + 1) = 0 then 1 else smax - (r + 1)) + 1 := by
        split <;> split <;> omega
      rw [e]
      simp only [repeat_add, Nat.mul_add, Nat.mul_one, Nat.add_comm]

theorem send_fails (limit : Nat) (endpoint : Bytes → W → Bytes × W) (max : Nat) (hm : 0 < max) (d : Bytes) (f : W → W)
    (hf : ∀ w, attempt limit endpoint d w = (none, f w)) (w : W) : send limit endpoint max d w = (.maxRetries, Nat.repeat f max w, max) := by
  have := retryLoop_fails limit endpoint max d f hf (max + 1) 0 w hm (by omega)
  rw [Nat.sub_zero] at this
  exact this

/-- **C110 is false of the code for requests.** A request that does not fit fails as if the server did not answer: after `max_retries` time-outs,
`CommunicationsMaxRetriesReached` (never "cannot be sent"), for which a buffered sender tries `max(1, max_retries)` times, to no
avail. The endpoint does not run. -/
theorem C110_request_refuted (endpoint : Bytes → W → Bytes × W) (max smax : Nat) (hm : 0 < max) {d : Bytes} (h : d.length > 65507) (w : W) :
    send 65507 endpoint max d w = (.maxRetries, w, max) ∧
    bufferedSend 65507 endpoint max smax d w = (.maxRetries, w, max * (if smax = 0 then 1 else smax)) := by
  have ha : ∀ w, attempt 65507 endpoint d w = (none, id w) := by
    intro w
    have e1 : sendto 65507 d = none := by
      simp only [sendto, h, if_true, ite_self]
    simp only [attempt, e1, id]
  have hid : ∀ n (w : W), Nat.repeat id n w = w := by
    intro n
    induction n with
    | zero => intro w; rfl
    | succ n ih => intro w; exact ih w
  have hs := send_fails 65507 endpoint max hm d id ha
  refine ⟨by rw [hs, hid], ?_⟩
  have := senderLoop_fails 65507 endpoint max smax d id max hs (smax + 1) 0 w (Or.inr rfl) (by omega) (by omega)
  simp only [Nat.sub_zero, hid] at this
  exact this

/-- **C110 is false of the code for responses.** When the response does not fit, the client hears nothing and sends the request again: the endpoint runs
`max_retries` times for one call of `send_message`, and `max_retries` times `max(1, max_retries of the sender)` times for
one message of a buffered sender, which then calls it an error. -/
theorem C110_response_refuted (endpoint : Bytes → W → Bytes × W) (max smax : Nat) (hm : 0 < max) {d : Bytes} (hd : IsRequest d)
    (h1 : d.length ≤ 65507) (h2 : ∀ w, (endpoint d w).1.length > 65507) (w : W) :
    send 65507 endpoint max d w = (.maxRetries, ran endpoint d w max, max) ∧
    bufferedSend 65507 endpoint max smax d w =
      (.maxRetries, ran endpoint d w (max * (if smax = 0 then 1 else smax)), max * (if smax = 0 then 1 else smax)) := by
  have ha : ∀ w, attempt 65507 endpoint d w = (none, (fun w => (endpoint d w).2) w) := by
    intro w
    have hne : d ≠ [] := by intro e; rw [e] at hd; cases hd.1
    have e1 : sendto 65507 d = some d := by
      simp only [sendto, List.isEmpty_iff]
      rw [if_neg hne, if_neg (by omega)]
    have e2 : sendto 65507 (endpoint d w).1 = none := by
      simp only [sendto, h2 w, if_true, ite_self]
    simp only [attempt, e1, serve, hd.1, LF, if_true]
    rw [if_neg (show ¬ d.head? = some ACK from hd.2)]
    simp only [e2]
  have hr : ∀ n, Nat.repeat (fun w => (endpoint d w).2) n w = ran endpoint d w n := by
    intro n
    induction n with
    | zero => rfl
    | succ n ih => simp only [Nat.repeat, ran, ih]
  have hs := send_fails 65507 endpoint max hm d _ ha
  refine ⟨by rw [hs, hr], ?_⟩
  have := senderLoop_fails 65507 endpoint max smax d _ max hs (smax + 1) 0 w (Or.inr rfl) (by omega) (by omega)
  simp only [Nat.sub_zero, hr] at this
  exact this

/-- An endpoint that counts its calls. -/
def counting (r : Bytes) (_ : Bytes) (n : Nat) : Bytes × Nat := (r, n + 1)

/-- What fits: one call. -/
example : send 65507 (counting [123, 125]) 3 [123, 125, 10] 0 = (.reply [123, 125], 1, 0) := by decide

example : IsRequest [123, 125, 10] := ⟨rfl, by decide⟩

/-- A request of 65508 bytes: no call, three time-outs; a buffered sender with `max_retries` 5: fifteen. -/
example : send 65507 (counting [123, 125]) 3 (List.replicate 65507 32 ++ [10]) 0 = (.maxRetries, 0, 3) ∧
    bufferedSend 65507 (counting [123, 125]) 3 5 (List.replicate 65507 32 ++ [10]) 0 = (.maxRetries, 0, 15) :=
  C110_request_refuted (counting [123, 125]) 3 5 (by decide) (by rw [List.length_append, List.length_replicate]; decide) 0

/-- A response of 65508 bytes: three calls; with a buffered sender with `max_retries` 5: fifteen. -/
example : send 65507 (counting (List.replicate 65508 32)) 3 [123, 125, 10] 0 = (.maxRetries, 3, 3) ∧
    bufferedSend 65507 (counting (List.replicate 65508 32)) 3 5 [123, 125, 10] 0 = (.maxRetries, 15, 15) :=
  C110_response_refuted (counting (List.replicate 65508 32)) 3 5 (by decide) (d := [123, 125, 10]) ⟨rfl, by decide⟩ (by decide)
    (fun w => by simp only [counting, List.length_replicate]; decide) 0

end Verif.Size
