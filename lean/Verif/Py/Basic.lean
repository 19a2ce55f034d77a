/-!
# Python values used by several models

Exceptions are ordinary values in the models; `PyErr` lists the exception classes that occur.
`Dict` is CPython's insertion-ordered `dict`, reduced to the operations the modelled code uses.
-/

namespace Verif.Py

/-- The exception classes that can surface in the modelled code.
Simplification: messages are dropped unless a model carries them separately. -/
inductive PyErr where
  | keyError
  | indexError
  | attributeError
  | typeError
  | valueError
  | overflowError
  | integrityError
  | decodeError
  | invalidState
  deriving DecidableEq, Repr

/-- Python `dict`: keys in insertion order. -/
abbrev Dict (K V : Type _) := List (K × V)

namespace Dict

variable {K V : Type _} [DecidableEq K]

/-- `d.get(k)` -/
def get? (d : Dict K V) (k : K) : Option V :=
  match d with
  | [] => none
  | (k', v) :: rest => if k' = k then some v else get? rest k

/-- `k in d` -/
def has (d : Dict K V) (k : K) : Bool := (get? d k).isSome

/-- `d[k] = v`: replaces in place, or appends. -/
def set (d : Dict K V) (k : K) (v : V) : Dict K V :=
  match d with
  | [] => [(k, v)]
  | (k', v') :: rest => if k' = k then (k', v) :: rest else (k', v') :: set rest k v

/-- the dictionary left by `d.pop(k)` -/
def erase (d : Dict K V) (k : K) : Dict K V :=
  match d with
  | [] => []
  | (k', v') :: rest => if k' = k then rest else (k', v') :: erase rest k

/-- `d.pop(k)`: raises `KeyError` when absent. -/
def pop (d : Dict K V) (k : K) : Except PyErr V × Dict K V :=
  match get? d k with
  | none => (.error .keyError, d)
  | some v => (.ok v, erase d k)

/-- `d.keys()` -/
def keys (d : Dict K V) : List K := d.map Prod.fst

end Dict

end Verif.Py
