import Mathlib.Algebra.Order.Ring.Rat

/-!
# Model of the rounds of the Prometheus exporter

`EkosisPrometheusScraper.run` and `_scrape_and_push`, ekosis_prometheus/ekosis_prometheus/scraper.py ("sr") 74-125, as the task that `EkosisPrometheusApp.setup_tasks`
(application.py 13-14) starts: when services are polled and when what was found is pushed to the gateway. What a poll makes of an answer is in `Verif.Scrape`; here an answer is
just there or not. The services are those found when the application was made (application.py 10-11, sr 71); the list does not change.

Times are seconds since the task began. How long anything takes, and whether a service answers, is chosen freely.
-/

namespace Verif.Poll

/-- `n`: the number of services; `interval`: `gather_period` (sr 70). `late k`: by how much the sleep before round `k` takes longer than asked for. `answers i t`: service `i`
answers when it is asked at the time `t`, and the statistics can be translated; `cost i t`: how long that poll takes, successful or not. `taken t`: the gateway takes a push at the time
`t`; `pushCost t`: how long the push takes. -/
structure Env where
  n : Nat
  interval : ℚ
  late : Nat → ℚ
  answers : Nat → ℚ → Bool
  cost : Nat → ℚ → ℚ
  taken : ℚ → Bool
  pushCost : ℚ → ℚ

/-- What is found about a service: its number, when it was asked, its health. -/
structure Found where
  service : Nat
  asked : ℚ
  healthy : Bool
  deriving DecidableEq

/-- A push: when, what (the registry of sr 83-91, which is new in every round), and whether the gateway took it. -/
structure Push where
  time : ℚ
  found : List Found
  taken : Bool
  deriving DecidableEq

/-- The loop over the targets, sr 94-121, one after the other; the time after it. An exception is a health of 0 (sr 118-120).
Simplified: the targets are told apart by their number, not by the labels of the gauge (for these see `Verif.Scrape`); every target has a sender (sr 95-97 do not apply: discovery gives
only the three protocols of sr 45-50, service_discovery.py 53). -/
def pollAll (E : Env) : List Nat → ℚ → List Found × ℚ
  | [], t => ([], t)
  | i :: is, t =>
    let r := pollAll E is (t + E.cost i t)
    (⟨i, t, E.answers i t⟩ :: r.1, r.2)

/-- One turn of the loop, sr 78-80 with 82-125. A failing push is logged (sr 123-125). -/
def round (E : Env) (k : Nat) (now : ℚ) : Push × ℚ :=
  let r := pollAll E (List.range E.n) (now + E.interval + E.late k)
  (⟨r.2, r.1, E.taken r.2⟩, r.2 + E.pushCost r.2)

/-- `run`, sr 75-80: the pushes of the first `k` turns, oldest first, and the time after them. -/
def rounds (E : Env) : Nat → List Push × ℚ
  | 0 => ([], 0)
  | k + 1 =>
    let r := rounds E k
    let p := round E k r.2
    (r.1 ++ [p.1], p.2)

end Verif.Poll
