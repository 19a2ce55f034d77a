import Mathlib.Algebra.Order.Ring.Rat

/-!
# Model of the loop that gathers statistics

`ekosis/state_keepers/statistics_keeper.py` ("sk") 152-166, as the task that `ApplicationBase.__start_stats_keeper`
(application_base.py 231-233) runs. What gathering does to the statistics is in `Verif.Stats`; here it is about when it is done, and
whether the loop ever lets others run.

One step is the code up to the next test of a loop condition or to the next `await` that suspends. `self.__running` is true from
`__aenter__` (sk 132-135) until `__aexit__`, which does not run before the loop ends; so it is true throughout. Awaiting
`__update_current_statistics` and `__reset_current_statistics` (sk 162, 166) does not suspend: nothing in them waits. Exceptions of
gathering (C48) are left out.
-/

namespace Verif.Gather

/-- Where the loop is: before the test of the outer loop (sk 153), before the test of the inner loop with its `sleep_count` (sk 156),
suspended in `asyncio.sleep(1)` (sk 157), before gathering (sk 160). -/
inductive Pc where
  | outer
  | inner (count : Nat)
  | asleep (count : Nat)
  | full
  deriving DecidableEq, Repr

/-- What is seen of a step: the task suspends, giving way to all others; statistics are gathered. -/
inductive Out where
  | sleep
  | gather
  deriving DecidableEq, Repr

/-- `now`: seconds since the loop began; `slept`: the number of sleeps; `outs`: what was seen, oldest first; `times`: when statistics were
gathered, oldest first. -/
structure St where
  pc : Pc
  now : ℚ
  slept : Nat
  outs : List Out
  times : List ℚ

/-- The loop is entered. -/
def new : St := ⟨.outer, 0, 0, [], []⟩

/-- One step with the gather period `gp`; `late i`: by how much the `i`th sleep takes longer than a second, waiting for others
to give way included. -/
def step (gp : Int) (late : Nat → ℚ) (s : St) : St :=
  match s.pc with
  | .outer => { s with pc := .inner 0 }
  | .inner c => if (c : Int) < gp then { s with pc := .asleep c, outs := s.outs ++ [.sleep] } else { s with pc := .full }
  | .asleep c => { s with pc := .inner (c + 1), now := s.now + 1 + late s.slept, slept := s.slept + 1 }
  | .full => { s with pc := .outer, outs := s.outs ++ [.gather], times := s.times ++ [s.now] }

/-- `n` steps. -/
def run (gp : Int) (late : Nat → ℚ) : Nat → St
  | 0 => new
  | n + 1 => step gp late (run gp late n)

end Verif.Gather
