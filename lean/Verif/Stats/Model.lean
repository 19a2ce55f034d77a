import Verif.Py.Basic
import Mathlib.Data.List.Sort
import Mathlib.Algebra.Order.Ring.Rat

/-!
# Statistics

ekosis/state_keepers/statistics_keeper.py.

Simplification throughout: numbers are exact rationals instead of floats.
-/

namespace Verif.Stats

open Verif.Py

/-- A value in the statistics: a number, a text (the application's name) or a nested dictionary. -/
inductive Stat where
  | num (q : ℚ)
  | text (s : String)
  | node (d : List (String × Stat))

/-- `__statistics_current`, a dictionary of statistics (statistics_keeper.py 21). -/
abbrev Store := Dict String Stat

/-- Python's `key.split('.')` on characters. -/
def splitChars : List Char → List (List Char)
  | [] => [[]]
  | c :: cs =>
    if c = '.' then [] :: splitChars cs
    else match splitChars cs with
      | [] => [[c]]
      | w :: ws => (c :: w) :: ws

/-- Python's `key.split('.')`. -/
def split (key : String) : List String := (splitChars key.toList).map String.ofList

/-- `__deep_get`, statistics_keeper.py 89-96. -/
def deepGet (d : Store) : List String → Option Stat
  | [] => some (.node d)
  | k :: ks => match d.get? k with
    | none => none
    | some (.node c) => deepGet c ks
    | some v => if ks = [] then some v else none

/-- `__deep_set`, statistics_keeper.py 98-102. A number on the way has no `setdefault` (`AttributeError`) and does not
support item assignment (`TypeError`); in both cases nothing was changed before. -/
def deepSet (d : Store) : List String → Stat → Except PyErr Store
  | [], _ => .error .indexError
  | [k], v => .ok (d.set k v)
  | k :: k' :: ks, v => match d.get? k with
    | none => match deepSet [] (k' :: ks) v with
      | .ok c => .ok (d.set k (.node c))
      | .error e => .error e
    | some (.node c) => match deepSet c (k' :: ks) v with
      | .ok c' => .ok (d.set k (.node c'))
      | .error e => .error e
    | some _ => .error (if ks = [] then .typeError else .attributeError)

/-- `set_statistic_value`, statistics_keeper.py 85-87. -/
def setValue (d : Store) (key : String) (v : ℚ) : Except PyErr Store := deepSet d (split key) (.num v)

/-- `increment`, statistics_keeper.py 111-114 with `__get_statistic_value` (104-109); `decrement` (116-119) is `increment` of
the negated amount. Adding a number to a text or a dictionary is a `TypeError`. -/
def incrementValue (d : Store) (key : String) (v : ℚ) : Except PyErr Store :=
  match deepGet d (split key) with
  | none => deepSet d (split key) (.num (0 + v))
  | some (.num q) => deepSet d (split key) (.num (q + v))
  | some _ => .error .typeError

/-- One cut point of `statistics.quantiles(data, n=100)` with the method 'exclusive' (CPython's statistics.py, `quantiles`):
the one with index `i - 1`, for sorted data of at least two points. -/
def cut (data : List ℚ) (i : Nat) : ℚ :=
  let ld := data.length
  let m := ld + 1
  let j := i * m / 100
  let j := if j < 1 then 1 else if j > ld - 1 then ld - 1 else j
  let delta : Int := (i * m : Nat) - (j * 100 : Nat)
  (data.getD (j - 1) 0 * (100 - delta : Int) + data.getD j 0 * delta) / 100

/-- The pair stored for one endpoint by `get_endpoint_percentiles`, statistics_keeper.py 38-47: `quantiles[94]` and
`quantiles[98]`. -/
def percentiles (durations : List ℚ) : ℚ × ℚ :=
  if durations.length ≥ 2 then
    let sorted := durations.insertionSort (· ≤ ·)
    (cut sorted 95, cut sorted 99)
  else match durations with
    | [d] => (d, d)
    | _ => (-1, -1)

mutual

/-- `__reset_stats` on a value, statistics_keeper.py 143-146. -/
def Stat.reset : Stat → Stat
  | .node d => .node (resetStore d)
  | _ => .num 0

/-- `__reset_stats`, statistics_keeper.py 141-146. -/
def resetStore : List (String × Stat) → List (String × Stat)
  | [] => []
  | (k, v) :: rest => (k, v.reset) :: resetStore rest

end

/-- The `StatisticsKeeper`, statistics_keeper.py 15-24. The sizes of the persisted queues are given by the events. -/
structure Keeper where
  name : String
  instance_ : String
  start : ℚ
  gatherPeriod : ℚ
  historyLength : Int
  current : Store
  history : List Store
  queues : List String
  durations : Dict String (List ℚ)

/-- A keeper as it is when the application starts. -/
def Keeper.new (name instance_ : String) (start gatherPeriod : ℚ) (historyLength : Int) : Keeper :=
  { name, instance_, start, gatherPeriod, historyLength, current := [], history := [], queues := [], durations := [] }

/-- A sequence of calls of `set_statistic_value`, up to the first that raises. -/
def setAll (d : Store) : List (String × ℚ) → Except PyErr Unit × Store
  | [] => (.ok (), d)
  | (k, v) :: rest => match setValue d k v with
    | .ok d' => setAll d' rest
    | .error e => (.error e, d)

/-- The assignments of statistics_keeper.py 57-62. -/
def stamp (s : Keeper) (now : ℚ) : Store :=
  let d := s.current
  let d := d.set "timestamp" (.num now)
  let d := d.set "uptime" (.num (now - s.start))
  let d := d.set "gather_period" (.num s.gatherPeriod)
  d.set "application" (.node [("name", .text s.name), ("instance", .text s.instance_)])

/-- The statistics written for the endpoints, statistics_keeper.py 64-67. -/
def percentileEntries : Dict String (List ℚ) → List (String × ℚ)
  | [] => []
  | (key, ds) :: rest =>
    ("endpoint_data." ++ key ++ ".p95", (percentiles ds).1) :: ("endpoint_data." ++ key ++ ".p99", (percentiles ds).2) ::
      percentileEntries rest

/-- `__update_current_statistics`, statistics_keeper.py 54-70. There is no point at which another task could run. -/
def update (s : Keeper) (now : ℚ) (sizes : String → ℚ) : Except PyErr Unit × Keeper :=
  let (r, d) := setAll (stamp s now) (percentileEntries s.durations ++ s.queues.map fun k => (k, sizes k))
  (r, { s with current := d })

/-- `self.__statistics_history.insert(0, ..)` and the `pop` after it, statistics_keeper.py 163-165. -/
def remember (history : List Store) (limit : Int) (snapshot : Store) : List Store :=
  let h := snapshot :: history
  if (h.length : Int) > limit then h.dropLast else h

/-- What happens to the keeper. -/
inductive Ev where
  /-- an endpoint is registered, statistics_keeper.py 124-126 -/
  | track (route : String)
  /-- a request was answered, statistics_keeper.py 128-130 -/
  | call (route : String) (duration : ℚ)
  /-- the application sets a statistic -/
  | set (key : String) (v : ℚ)
  /-- the application increments (or decrements) a statistic -/
  | increment (key : String) (v : ℚ)
  /-- a queue is added, statistics_keeper.py 121-122 -/
  | addQueue (key : String)
  /-- `get_current_statistics`, statistics_keeper.py 72-74 -/
  | read (now : ℚ) (sizes : String → ℚ)
  /-- one round of `gather_statistics`, statistics_keeper.py 160-166 -/
  | gather (now : ℚ) (sizes : String → ℚ)
  /-- `set_history_length`, statistics_keeper.py 32-33 -/
  | setLength (n : Int)

/-- The keeper with a new current store, or unchanged when the operation raised. -/
def put (s : Keeper) : Except PyErr Store → Except PyErr (Option Store) × Keeper
  | .ok d => (.ok none, { s with current := d })
  | .error e => (.error e, s)

/-- One event: what is raised or returned, and the new state. `gather` returns the copy it inserts into the history, `read`
the statistics it returns. Simplification: after an exception the gathering task of the code is over; here it may run on. -/
def step (s : Keeper) : Ev → Except PyErr (Option Store) × Keeper
  | .track r => match incrementValue s.current ("endpoint_data." ++ r ++ ".call_count") 0 with
    | .ok d => (.ok none, { s with current := d, durations := s.durations.set r [] })
    | .error e => (.error e, s)
  | .call r x => match incrementValue s.current ("endpoint_data." ++ r ++ ".call_count") 1 with
    | .ok d => match s.durations.get? r with
      | some ds => (.ok none, { s with current := d, durations := s.durations.set r (ds ++ [x]) })
      | none => (.error .keyError, { s with current := d })
    | .error e => (.error e, s)
  | .set k v => put s (setValue s.current k v)
  | .increment k v => put s (incrementValue s.current k v)
  | .addQueue k => (.ok none, { s with queues := if k ∈ s.queues then s.queues else s.queues ++ [k] })
  | .read now sizes => match update s now sizes with
    | (.ok _, s') => (.ok (some s'.current), s')
    | (.error e, s') => (.error e, s')
  | .gather now sizes => match update s now sizes with
    | (.ok _, s') => (.ok (some s'.current),
        { s' with
          history := remember s'.history s'.historyLength s'.current
          durations := s'.durations.map fun x => (x.1, [])
          current := resetStore s'.current })
    | (.error e, s') => (.error e, s')
  | .setLength n => (.ok none, { s with historyLength := n })

/-- A history of events. -/
def run (s : Keeper) : List Ev → Keeper
  | [] => s
  | e :: es => run (step s e).2 es

end Verif.Stats
