import Verif.Errors.Model

/-! What users expect of the error counters. -/

namespace Verif.Errors.Spec

variable (upper : String → String)

/-- How one operation changes the count of the error `id`; ids are compared without regard to case. Clearing a negative number
of errors clears none. -/
def tick (id : String) (c : Int) : Op → Int
  | .raised i _ => if upper i = upper id then c + 1 else c
  | .clearSome i n => if upper i = upper id then max 0 (c - max 0 n) else c
  | .clearAll i => if upper i = upper id then 0 else c
  | .request i n => if upper i = upper id then (if n = 0 then 0 else max 0 (c - max 0 n)) else c

/-- The count a history leads to. -/
def tally (id : String) (ops : List Op) : Int := ops.foldl (tick upper id) 0

/-- How often the error was raised. -/
def raises (id : String) : List Op → Int
  | [] => 0
  | .raised i _ :: ops => (if upper i = upper id then 1 else 0) + raises id ops
  | _ :: ops => raises id ops

/-- How many were asked to be cleared, when no operation clears all. -/
def cleared (id : String) : List Op → Int
  | [] => 0
  | .clearSome i n :: ops => (if upper i = upper id then n else 0) + cleared id ops
  | .request i n :: ops => (if upper i = upper id then n else 0) + cleared id ops
  | _ :: ops => cleared id ops

/-- No negative number is asked to be cleared. -/
def NonNeg : Op → Prop
  | .clearSome _ n | .request _ n => 0 ≤ n
  | _ => True

/-- The operation does not clear everything. -/
def NotAll : Op → Prop
  | .clearAll _ => False
  | .request _ n => n ≠ 0
  | _ => True

/-- The description given when the error was first raised. -/
def firstDescription (id : String) : List Op → Option String
  | [] => none
  | .raised i d :: ops => if upper i = upper id then some d else firstDescription id ops
  | _ :: ops => firstDescription id ops

/-- The count a report shows for `id`: that of the first entry, 0 when there is none. -/
def shown (r : List (String × String × Int)) (id : String) : Int :=
  match r.find? (fun x => x.1 = upper id) with
  | some x => x.2.2
  | none => 0

end Verif.Errors.Spec
