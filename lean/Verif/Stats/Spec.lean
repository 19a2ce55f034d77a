import Verif.Stats.Model

/-! What users expect of the statistics. -/

namespace Verif.Stats.Spec

open Verif.Py

/-- The statistics kept for each endpoint. -/
def fields : List String := ["call_count", "p95", "p99"]

/-- No route is another route with the name of a statistic, and possibly more, behind it: not both "a" and "a.p95". -/
def NoClash (routes : List String) : Prop :=
  ∀ r ∈ routes, ∀ r' ∈ routes, ∀ x ∈ fields, ¬ (split r ++ [x]) <+: split r'

/-- The calls reported for a route. -/
def countIn (d : Store) (route : String) : ℚ :=
  match deepGet d (split ("endpoint_data." ++ route ++ ".call_count")) with
  | some (.num q) => q
  | _ => 0

/-- How often a route was called. -/
def calls (route : String) : List Ev → Nat
  | [] => 0
  | .call r _ :: es => (if r = route then 1 else 0) + calls route es
  | _ :: es => calls route es

/-- What the events returned or raised. -/
def trace (s : Keeper) : List Ev → List (Ev × Except PyErr (Option Store))
  | [] => []
  | e :: es => (e, (step s e).1) :: trace (step s e).2 es

/-- The periods gathered, oldest first. -/
def gathered : List (Ev × Except PyErr (Option Store)) → List Store
  | [] => []
  | (.gather _ _, .ok (some d)) :: rest => d :: gathered rest
  | _ :: rest => gathered rest

/-- The durations of the calls of a route since the current period, or the registration, began. -/
def since (route : String) (ds : List ℚ) : List (Ev × Except PyErr (Option Store)) → List ℚ
  | [] => ds
  | (.gather _ _, .ok _) :: rest => since route [] rest
  | (.track r, .ok _) :: rest => since route (if r = route then [] else ds) rest
  | (.call r x, .ok _) :: rest => since route (if r = route then ds ++ [x] else ds) rest
  | _ :: rest => since route ds rest

/-- The routes that are registered or called. -/
def routes : List Ev → List String
  | [] => []
  | .track r :: es => r :: routes es
  | .call r _ :: es => r :: routes es
  | _ :: es => routes es

/-- The application does not write below `endpoint_data` itself. -/
def Apart : Ev → Prop
  | .set k _ | .increment k _ | .addQueue k => (split k).head? ≠ some "endpoint_data"
  | _ => True

/-- Where the name and the instance of the application stand. -/
def identity : List (List String) := [["application", "name"], ["application", "instance"]]

/-- Where every keeper writes. -/
def always : List (List String) := ["timestamp"] :: ["uptime"] :: ["gather_period"] :: identity

/-- Where an event makes the keeper write, now or when it gathers. -/
def places : Ev → List (List String)
  | .track r | .call r _ => fields.map fun f => "endpoint_data" :: (split r ++ [f])
  | .set k _ | .increment k _ | .addQueue k => [split k]
  | _ => []

/-- No statistic stands at a place where another one needs a dictionary. -/
def Compatible (ps : List (List String)) : Prop := ∀ p ∈ ps, ∀ q ∈ ps, p <+: q → p = q

/-- The application does not increment its own name. -/
def Sensible : Ev → Prop
  | .increment k _ => split k ∉ identity
  | _ => True

/-- Only registered endpoints are called. -/
def Registered (es : List Ev) : Prop := ∀ a r x b, es = a ++ .call r x :: b → .track r ∈ a

/-- The number of durations not above a bound. -/
def within (ds : List ℚ) (x : ℚ) : Nat := ds.countP (· ≤ x)

end Verif.Stats.Spec
