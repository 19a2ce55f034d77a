import Verif.Py.Basic

/-!
# Error states

ekosis/state_keepers/error_state_keeper.py, error_state_list.py and ekosis/standard_endpoints/errors.py.
-/

namespace Verif.Errors

open Verif.Py

/-- `ErrorStateKeeper.__init__`, error_state_keeper.py 5-8. -/
structure Keeper where
  id : String
  description : String
  count : Int
  deriving DecidableEq, Repr

namespace Keeper

/-- `ErrorStateKeeper.increment`, error_state_keeper.py 23-24. -/
def increment (k : Keeper) : Keeper := { k with count := k.count + 1 }

/-- `ErrorStateKeeper.clear_some`, error_state_keeper.py 26-30. -/
def clearSome (k : Keeper) (howMany : Int) : Keeper :=
  if k.count ≥ howMany then { k with count := k.count - howMany } else { k with count := 0 }

/-- `ErrorStateKeeper.clear_all`, error_state_keeper.py 32-33. -/
def clearAll (k : Keeper) : Keeper := { k with count := 0 }

/-- `ErrorStateKeeper.is_set`, error_state_keeper.py 38-39. -/
def isSet (k : Keeper) : Bool := k.count > 0

/-- `ErrorStateKeeper.to_dict`, error_state_keeper.py 10-15: the fields `error_id`, `description` and `count`. -/
def toDict (k : Keeper) : String × String × Int := (k.id, k.description, k.count)

end Keeper

/-- `ErrorStateList.error_state_map`, error_state_list.py 11. -/
abbrev Map := Dict String Keeper

/-! `upper` is Python's `str.upper`, kept as a parameter: nothing about it is assumed. -/

variable (upper : String → String)

/-- `ErrorStateList.has_error_id`, error_state_list.py 19-21. -/
def hasId (m : Map) (id : String) : Bool := m.has (upper id)

/-- `ErrorStateList.increment`, error_state_list.py 30-35. -/
def increment (m : Map) (id description : String) : Map :=
  let u := upper id
  let m := if m.has u then m else m.set u ⟨u, description, 0⟩
  match m.get? u with
  | some k => m.set u k.increment
  | none => m

/-- `ErrorStateList.clear_some`, error_state_list.py 37-40. -/
def clearSome (m : Map) (id : String) (howMany : Int) : Map :=
  match m.get? (upper id) with
  | some k => m.set (upper id) (k.clearSome howMany)
  | none => m

/-- `ErrorStateList.clear_all`, error_state_list.py 42-45. -/
def clearAll (m : Map) (id : String) : Map :=
  match m.get? (upper id) with
  | some k => m.set (upper id) k.clearAll
  | none => m

/-- `ErrorStateList.get_error_states`, error_state_list.py 47-52. -/
def states (m : Map) : List Keeper := (m.map Prod.snd).filter Keeper.isSet

/-- `build_errors_response`, errors.py 9-15: the answer of `eco.error_states.get` (errors.py 18-20). -/
def report (m : Map) : List (String × String × Int) := ((states m).filter Keeper.isSet).map Keeper.toDict

/-- `eco_error_states_clear`, errors.py 23-31, without the answer, which is `report` of the new map. -/
def clearRequest (m : Map) (id : String) (count : Int) : Map :=
  if hasId upper m id then
    if count = 0 then clearAll upper m id else clearSome upper m id count
  else m

/-- What can happen to the error states: the application raises or clears an error, or a client asks to clear one. -/
inductive Op where
  | raised (id description : String)
  | clearSome (id : String) (howMany : Int)
  | clearAll (id : String)
  | request (id : String) (count : Int)
  deriving DecidableEq, Repr

/-- The effect of one operation. -/
def step (m : Map) : Op → Map
  | .raised id d => increment upper m id d
  | .clearSome id n => clearSome upper m id n
  | .clearAll id => clearAll upper m id
  | .request id n => clearRequest upper m id n

/-- A history, from the empty map. -/
def run (ops : List Op) : Map := ops.foldl (step upper) []

end Verif.Errors
