import Verif.Stats.Model

/-!
# Flattening of statistics

`flatten_dictionary`, ekosis/util/utility_functions.py 55-63, as the telemetry example (examples/telemetry/telemetry_example.py 265-267) applies it to
the statistics of an application.
-/

namespace Verif.Stats

open Verif.Py

/-- `new_key`, utility_functions.py 58. -/
def newKey (current key : String) : String := if current ≠ "" then current ++ "." ++ key else key

/-- `retval.update(..)`, utility_functions.py 60. -/
def updateWith (retval : Dict String Stat) : List (String × Stat) → Dict String Stat
  | [] => retval
  | (k, v) :: rest => updateWith (Dict.set retval k v) rest

mutual

/-- The loop of `flatten_dictionary`, utility_functions.py 57-63, with the dictionary `retval` built so far. -/
def flattenItems (current : String) : List (String × Stat) → Dict String Stat → Dict String Stat
  | [], retval => retval
  | (k, v) :: rest, retval => flattenItems current rest (flattenValue (newKey current k) v retval)

/-- The body of the loop, utility_functions.py 59-62. -/
def flattenValue (key : String) : Stat → Dict String Stat → Dict String Stat
  | .node d, retval => updateWith retval (flattenItems key d [])
  | .num q, retval => Dict.set retval key (.num q)
  | .text s, retval => Dict.set retval key (.text s)

end

/-- `flatten_dictionary(d)`. -/
def flatten (d : Store) : Dict String Stat := flattenItems "" d []

end Verif.Stats
