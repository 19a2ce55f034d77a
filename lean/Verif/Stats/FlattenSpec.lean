import Verif.Stats.Model

/-! What is expected of a flattened dictionary. -/

namespace Verif.Stats.Spec

open Verif.Py

/-- Segments with dots between them. -/
def joined : List String → String
  | [] => ""
  | [w] => w
  | w :: w' :: ws => w ++ "." ++ joined (w' :: ws)

/-- The key under which the value at a place is found: the segments with dots between them, without the empty segments at the
beginning. -/
def dotted (p : List String) : String := joined (p.dropWhile fun k => k = "")

mutual

/-- The values in a dictionary that are not dictionaries, with their places, in the order of the dictionary. -/
def valuesIn (pre : List String) : List (String × Stat) → List (List String × Stat)
  | [] => []
  | (k, v) :: rest => valuesOf (pre ++ [k]) v ++ valuesIn pre rest

/-- As `valuesIn`, for a value. -/
def valuesOf (pre : List String) : Stat → List (List String × Stat)
  | .node d => valuesIn pre d
  | .num q => [(pre, .num q)]
  | .text s => [(pre, .text s)]

end

/-- The last value under a key. -/
def lastUnder (key : String) : List (String × Stat) → Option Stat
  | [] => none
  | (k, v) :: rest => (lastUnder key rest).or (if k = key then some v else none)

/-- A value that is not a dictionary. -/
def IsValue : Stat → Prop
  | .node _ => False
  | _ => True

/-- What stands at a place below a value. -/
def below : Stat → List String → Option Stat
  | .node d, p => deepGet d p
  | v, p => if p = [] then some v else none

end Verif.Stats.Spec
