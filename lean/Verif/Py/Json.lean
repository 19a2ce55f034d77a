import Verif.Py.Basic

/-!
# JSON values

The Python values that `json.loads` can build.
-/

namespace Verif.Py

/-- A value built by `json.loads`: `None`, `bool`, `int`, `float`, `str`, `list`, `dict`.
Simplification: a float is represented by its `repr`. -/
inductive Json where
  | null
  | bool (b : Bool)
  | int (i : Int)
  | float (repr : String)
  | str (s : String)
  | arr (items : List Json)
  | obj (fields : List (String × Json))
  deriving Repr

namespace Json

mutual

/-- Equality of JSON values can be decided. -/
def decEq : (a b : Json) → Decidable (a = b)
  | .null => fun
    | .null => isTrue rfl
    | .bool _ | .int _ | .float _ | .str _ | .arr _ | .obj _ => isFalse nofun
  | .bool x => fun
    | .bool y => match (inferInstance : Decidable (x = y)) with
      | isTrue h => isTrue (by rw [h])
      | isFalse h => isFalse (by intro e; injection e with e; exact h e)
    | .null | .int _ | .float _ | .str _ | .arr _ | .obj _ => isFalse nofun
  | .int x => fun
    | .int y => match (inferInstance : Decidable (x = y)) with
      | isTrue h => isTrue (by rw [h])
      | isFalse h => isFalse (by intro e; injection e with e; exact h e)
    | .null | .bool _ | .float _ | .str _ | .arr _ | .obj _ => isFalse nofun
  | .float x => fun
    | .float y => match (inferInstance : Decidable (x = y)) with
      | isTrue h => isTrue (by rw [h])
      | isFalse h => isFalse (by intro e; injection e with e; exact h e)
    | .null | .bool _ | .int _ | .str _ | .arr _ | .obj _ => isFalse nofun
  | .str x => fun
    | .str y => match (inferInstance : Decidable (x = y)) with
      | isTrue h => isTrue (by rw [h])
      | isFalse h => isFalse (by intro e; injection e with e; exact h e)
    | .null | .bool _ | .int _ | .float _ | .arr _ | .obj _ => isFalse nofun
  | .arr x => fun
    | .arr y => match decEqList x y with
      | isTrue h => isTrue (by rw [h])
      | isFalse h => isFalse (by intro e; injection e with e; exact h e)
    | .null | .bool _ | .int _ | .float _ | .str _ | .obj _ => isFalse nofun
  | .obj x => fun
    | .obj y => match decEqFields x y with
      | isTrue h => isTrue (by rw [h])
      | isFalse h => isFalse (by intro e; injection e with e; exact h e)
    | .null | .bool _ | .int _ | .float _ | .str _ | .arr _ => isFalse nofun

/-- The same for lists. -/
def decEqList : (a b : List Json) → Decidable (a = b)
  | [], [] => isTrue rfl
  | [], _ :: _ => isFalse nofun
  | _ :: _, [] => isFalse nofun
  | x :: xs, y :: ys => match decEq x y, decEqList xs ys with
    | isTrue h, isTrue h' => isTrue (by rw [h, h'])
    | isFalse h, _ => isFalse (by intro e; injection e with e1 e2; exact h e1)
    | _, isFalse h => isFalse (by intro e; injection e with e1 e2; exact h e2)

/-- The same for fields. -/
def decEqFields : (a b : List (String × Json)) → Decidable (a = b)
  | [], [] => isTrue rfl
  | [], _ :: _ => isFalse nofun
  | _ :: _, [] => isFalse nofun
  | (k, x) :: xs, (l, y) :: ys =>
    match (inferInstance : Decidable (k = l)), decEq x y, decEqFields xs ys with
    | isTrue h, isTrue h', isTrue h'' => isTrue (by rw [h, h', h''])
    | isFalse h, _, _ => isFalse (by intro e; injection e with e1 e2; injection e1 with e1 e3; exact h e1)
    | _, isFalse h, _ => isFalse (by intro e; injection e with e1 e2; injection e1 with e1 e3; exact h e3)
    | _, _, isFalse h => isFalse (by intro e; injection e with e1 e2; exact h e2)

end

instance : DecidableEq Json := decEq

end Json

end Verif.Py
