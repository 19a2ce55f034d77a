import Mathlib.Algebra.Order.Ring.Rat

/-!
# Model of how long sends through one datagram client, or one connection of a persistent client, take

`DatagramClientBase._send_message` and `_send_message_retry_loop`, ekosis/clients/datagram_client_base.py ("dg") 57-86, with `DatagramProtocolClient.send_message` (dg 32-38), for any number of sends at the
same time. The lock of dg 55 is an `asyncio.Lock`: it is given to those who wait for it in the order in which they came (asyncio/locks.py 93-146), and it is held while the reply is awaited. Times
are seconds on the clock of the event loop.

`PersistentStreamClientBase`, ekosis/clients/persistent_stream_client_base.py ("pc") 65-78, 99-141, does the same with its lock for reading while its connection is up: writing does not wait for anything
(pc 59-62), then the lock is taken, a line is awaited for at most `timeout`; a time-out leads to a sleep and another attempt (pc 136-137 with 121-127). The heartbeat (pc 79-97) is a send with a single attempt.

Simplified: the first send opens the socket or the connection (dg 58-64, pc 53-56), here it is open, and stays so: what a persistent client does when its connection breaks (pc 138-145) is left out.
The lock goes from one to the next at once (asyncio wakes the next one up in the next turn of the event loop).
-/

namespace Verif.Wait

/-- `timeout`, `retry_delay`, dg 42-49, pc 27-30; `late`: by how much the event loop may be late with a timer. -/
structure Par where
  timeout : ℚ
  delay : ℚ
  late : ℚ

/-- A call of `send_message`: who, when, `max_retries`, and `retry_count` (dg 74, pc 130). -/
structure Send where
  id : Nat
  start : ℚ
  max : Nat
  tries : Nat
  deriving DecidableEq

/-- `holder`: who holds the lock, since when; `waiting`: for the lock, the first comes next; `sleeping`: between two attempts, until when; `ended`: whose call returned or raised, when. -/
structure St where
  now : ℚ
  holder : Option (Send × ℚ)
  waiting : List Send
  sleeping : List (Send × ℚ)
  ended : List (Send × ℚ)
  deriving DecidableEq

/-- The client is made. -/
def init : St := ⟨0, none, [], [], []⟩

/-- What happens. -/
inductive Ev where
  /-- `send_message` is called, for the retry loop, with `max_retries`; a heartbeat is a call with 1 (pc 79-97) -/
  | call (id max : Nat)
  /-- a datagram arrives (dg 27-30), or the attempt fails otherwise (dg 85-86) -/
  | reply
  /-- `wait_for` gives up, dg 36 -/
  | timeout
  /-- the sleep of the send at this place is over, dg 84 -/
  | wake (i : Nat)
  /-- the same, but another send has succeeded in the meantime: the loop of a persistent client ends, pc 131 with 134 (what comes of that is C45) -/
  | quit (i : Nat)
  deriving DecidableEq

/-- `async with self.send_lock`, dg 66. -/
def acquire (s : St) (j : Send) : St :=
  match s.holder with
  | none => { s with holder := some (j, s.now) }
  | some _ => { s with waiting := s.waiting ++ [j] }

/-- The end of `async with self.send_lock`. -/
def release (s : St) : St :=
  match s.waiting with
  | [] => { s with holder := none }
  | j :: js => { s with holder := some (j, s.now), waiting := js }

/-- The timers that are running at `t` are not due any earlier than the event loop's lateness allows for: `wait_for` of the holder (dg 36), the sleeps (dg 84). -/
def inTime (P : Par) (s : St) (t : ℚ) : Bool :=
  decide (s.now ≤ t) && (s.holder.all fun h => decide (t ≤ h.2 + P.timeout + P.late)) && s.sleeping.all fun x => decide (t ≤ x.2 + P.late)

/-- One event at the time `t`, `none` if it cannot happen then. -/
def step (P : Par) (s : St) (t : ℚ) (e : Ev) : Option St :=
  if inTime P s t then
    let s := { s with now := t }
    match e with
    | .call id max =>
      -- dg 75, pc 131: the loop is not entered when `max_retries` is 0
      if max = 0 then some { s with ended := s.ended ++ [(⟨id, t, max, 0⟩, t)] } else some (acquire s ⟨id, t, max, 0⟩)
    | .reply =>
      match s.holder with
      | none => none
      | some (j, _) => some (release { s with ended := s.ended ++ [(j, t)] })
    | .timeout =>
      match s.holder with
      | none => none
      | some (j, h) =>
        if t < h + P.timeout then none
        else if j.tries + 1 ≥ j.max then some (release { s with ended := s.ended ++ [({ j with tries := j.tries + 1 }, t)] })
        else some (release { s with sleeping := s.sleeping ++ [({ j with tries := j.tries + 1 }, t + P.delay)] })
    | .wake i =>
      match s.sleeping[i]? with
      | none => none
      | some (j, w) => if t < w then none else some (acquire { s with sleeping := s.sleeping.eraseIdx i } j)
    | .quit i =>
      match s.sleeping[i]? with
      | none => none
      | some (j, w) => if t < w then none else some { s with sleeping := s.sleeping.eraseIdx i, ended := s.ended ++ [(j, t)] }
  else none

/-- Events one after the other. -/
def steps (P : Par) (s : St) : List (ℚ × Ev) → Option St
  | [] => some s
  | (t, e) :: es => (step P s t e).bind fun s' => steps P s' es

end Verif.Wait
