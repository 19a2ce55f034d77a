import Verif.Link.Model

/-!
# What the connections of a persistent client should be
-/

namespace Verif.Link

/-- The states that can be reached from a client made at any time (after 1970). -/
inductive Reach (cfg : Cfg) : St → Prop
  | new (now : ℚ) : 0 ≤ now → Reach cfg (new now)
  | step {s s' l} : Reach cfg s → step cfg s l = some s' → Reach cfg s'

/-- How many connections the client has open. -/
def openCount (s : St) : Nat := (s.conns.filter (·.mine)).length

/-- What task `t` wrote, newest first, by connection. -/
def writes (s : St) (t : Nat) : List Nat := (s.sent.filter (·.2 = t)).map (·.1)

/-- Task `t` sends a message. -/
def Sends (s : St) (t : Nat) : Prop := ∃ pc, s.tasks[t]? = some ⟨false, pc⟩

/-- The event is nobody's fault: no connection is closed by the server, the network or the user of the client, no attempt to connect fails, no read times out,
and heartbeats are acknowledged. -/
def Clean (s : St) : Label → Prop
  | .drop _ => False
  | .close => False
  | .failed _ _ => False
  | .read _ .timeout => False
  | .read t (.line false) => Sends s t
  | _ => True

/-- A sequence of events none of which is anybody's fault. -/
inductive CleanRun (cfg : Cfg) : St → St → Prop
  | nil (s) : CleanRun cfg s s
  | cons {s s1 s2 l} : Clean s l → step cfg s l = some s1 → CleanRun cfg s1 s2 → CleanRun cfg s s2

/-- A task that is not about to connect or to repeat an attempt, and reads, if at all, from connection `c`. -/
def Calm (c : Nat) : Pc → Prop
  | .opening _ => False
  | .reopening _ => False
  | .pausing _ => False
  | .reading _ c' => c' = c
  | _ => True

/-- The client is connected by `c`, both sides keep it open, and all tasks are calm. -/
def Settled (s : St) (c : Nat) : Prop :=
  s.connected = true ∧ s.cur = some c ∧ s.conns[c]? = some ⟨true, true⟩ ∧ ∀ (t : Nat) (x : Task), s.tasks[t]? = some x → Calm c x.pc

/-- The heartbeat task of the client sleeps until `u`. -/
def HeartAsleep (s : St) (h : Nat) (u : ℚ) : Prop := s.heart = some h ∧ s.tasks[h]? = some ⟨true, .asleep u⟩

/-- Nothing is going on but the heartbeat task `h`. -/
def Idle (s : St) (h : Nat) : Prop :=
  s.lock = none ∧ s.queue = [] ∧ ∀ (t : Nat) (x : Task), s.tasks[t]? = some x → t ≠ h → ∃ e, x.pc = .over e

end Verif.Link
