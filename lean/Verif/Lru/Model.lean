import Verif.Py.Basic

/-!
# Model of `ekosis/cacheing/lru_cache.py` ("lru") and `cached_item.py`

Nodes are mutable Python objects: the model has a heap from node numbers to node contents and follows the
code assignment by assignment, so that a broken ring is broken here too. Using an attribute of `None`
raises `AttributeError`. An exception keeps the assignments made before it.

Simplifications: keys are hashable values with decidable equality and are never `None`; nodes are never
garbage collected.
-/

namespace Verif.Lru

open Verif.Py

/-- `LRUCachedItem`, cached_item.py 4-12. `none` is `None`. -/
structure Node (K V : Type) where
  empty : Bool
  previous : Option Nat
  next : Option Nat
  key : Option K
  value : Option V

/-- `LRUCachedItem()`, cached_item.py 7-12. -/
def Node.new {K V : Type} : Node K V := ⟨true, none, none, none, none⟩

/-- `LRUCache`, lru 7-11. `heap` and `size` hold the nodes made so far. -/
structure Cache (K V : Type) where
  max : Int
  dict : Dict K Nat
  head : Option Nat
  tail : Option Nat
  heap : Nat → Node K V
  size : Nat

variable {K V : Type} [DecidableEq K]

/-- `LRUCache(max_size)`, lru 7-11. -/
def Cache.new (max : Int) : Cache K V := ⟨max, [], none, none, fun _ => .new, 0⟩

/-- Code that may raise; the state is kept when it does. -/
def M (K V A : Type) := Cache K V → Except PyErr A × Cache K V

instance : Monad (M K V) where
  pure a := fun s => (.ok a, s)
  bind x f := fun s => match x s with
    | (.ok a, s') => f a s'
    | (.error e, s') => (.error e, s')

/-- `raise`. -/
def raise {A : Type} (e : PyErr) : M K V A := fun s => (.error e, s)

/-- The current state. -/
def get : M K V (Cache K V) := fun s => (.ok s, s)

/-- Change the state. -/
def modify (f : Cache K V → Cache K V) : M K V Unit := fun s => (.ok (), f s)

/-- Using an attribute of a reference: `None` raises `AttributeError`. -/
def deref (r : Option Nat) : M K V Nat :=
  match r with
  | none => raise .attributeError
  | some n => pure n

/-- The content of a node. -/
def node (n : Nat) : M K V (Node K V) := fun s => (.ok (s.heap n), s)

/-- Assign to attributes of node `n`. -/
def update (n : Nat) (f : Node K V → Node K V) : M K V Unit :=
  modify fun s => { s with heap := fun m => if m = n then f (s.heap n) else s.heap m }

/-- `r.next = x`. -/
def setNext (r x : Option Nat) : M K V Unit := do
  let n ← deref r
  update n fun y => { y with next := x }

/-- `r.previous = x`. -/
def setPrevious (r x : Option Nat) : M K V Unit := do
  let n ← deref r
  update n fun y => { y with previous := x }

/-- `self._cached_items.pop(k)`; `None` is never a key. -/
def dictPop (k : Option K) : M K V Nat := fun s =>
  match k with
  | none => (.error .keyError, s)
  | some k => match s.dict.pop k with
    | (.error e, d) => (.error e, { s with dict := d })
    | (.ok n, d) => (.ok n, { s with dict := d })

/-- `self._cached_items[k] = n`. -/
def dictSet (k : K) (n : Nat) : M K V Unit := modify fun s => { s with dict := s.dict.set k n }

/-- `self.head = r`. -/
def setHead (r : Option Nat) : M K V Unit := modify fun s => { s with head := r }

/-- `__insert`, lru 14-32. -/
def insert (k : K) (v : V) : M K V Nat := do
  let n := (← get).size
  modify fun s => { s with size := s.size + 1, heap := fun m => if m = n then ({ (Node.new : Node K V) with empty := false, key := some k, value := some v }) else s.heap m }
  let s ← get
  if s.head = none then
    modify fun s => { s with head := some n, tail := some n }
  else
    update n fun y => { y with previous := s.tail }
    update n fun y => { y with next := s.head }
    if s.tail = s.head then
      setPrevious s.head (some n)
      setNext s.head (some n)
    else
      setNext s.tail (some n)
      setPrevious s.head (some n)
  dictSet k n
  return n

/-- `__replace_least_recently_used`, lru 35-45. -/
def replaceLru (k : K) (v : V) : M K V Unit := do
  let h ← deref (← get).head
  let e ← deref (← node h).previous
  if !(← node e).empty then
    let _ ← dictPop (← node e).key
  update e fun y => { y with empty := false, key := some k, value := some v }
  dictSet k e
  setHead (some e)

/-- The reference part of `__list_move_to_end`, lru 48-57. -/
def moveRefs (c : Nat) : M K V Unit := do
  if (← get).head = some c then
    setHead (← node c).next
  else
    setNext (← node c).previous (← node c).next
    setPrevious (← node c).next (← node c).previous
    let h ← deref (← get).head
    let hp := (← node h).previous
    update c fun y => { y with previous := hp }
    update c fun y => { y with next := some h }
    setNext (← node h).previous (some c)
    setPrevious (some h) (some c)

/-- `__list_move_to_end`, lru 48-62. -/
def moveToEnd (c : Nat) (empty : Bool) : M K V Unit := do
  moveRefs c
  if empty then
    update c fun y => { y with empty := true, key := none, value := none }

/-- `__list_move_to_front`, lru 65-68. -/
def moveToFront (c : Nat) : M K V Unit := do
  if (← get).head ≠ some c then
    moveToEnd c false
    setHead (some c)

/-- The nodes that `__iterator` yields in `n` rounds from `r`, lru 71-75; the consumer of each round uses an
attribute of the yielded node. -/
def walk : Nat → Option Nat → M K V (List Nat)
  | 0, _ => pure []
  | n + 1, r => do
    let c ← deref r
    let rest ← walk n (← node c).next
    return c :: rest

/-- `clear`'s loop, lru 79-82. -/
def clearLoop : Nat → Option Nat → M K V Unit
  | 0, _ => pure ()
  | n + 1, r => do
    let c ← deref r
    update c fun y => { y with empty := true, key := none, value := none }
    clearLoop n (← node c).next

/-- `clear`, lru 78-83. -/
def clear : M K V Unit := do
  let s ← get
  clearLoop s.dict.length s.head
  modify fun s => { s with dict := [] }

/-- `peek`, lru 87-90. `none`: the default is returned; `some none`: the value is `None`. -/
def peek (k : K) : M K V (Option (Option V)) := do
  match (← get).dict.get? k with
  | some n => return some (← node n).value
  | none => return none

/-- `__getitem__`, lru 149-152. -/
def getItem (k : K) : M K V (Option V) := do
  match (← get).dict.get? k with
  | some n =>
    moveToFront n
    return (← node n).value
  | none => raise .keyError

/-- `get`, lru 94-97. -/
def getDefault (k : K) : M K V (Option (Option V)) := do
  if (← get).dict.has k then return some (← getItem k)
  else return none

/-- `pop_item`, lru 101-107. -/
def popItem (k : K) : M K V (Option (Option V)) := do
  if (← get).dict.has k then
    let c ← dictPop (some k)
    let v := (← node c).value
    moveToEnd c true
    return some v
  else return none

/-- `pop`, lru 111-123. -/
def pop : M K V (Option (Option K × Option V)) := do
  let s ← get
  if s.dict.length < 1 then return none
  let c ← deref s.head
  setHead (← node c).next
  let k := (← node c).key
  let v := (← node c).value
  update c fun y => { y with empty := true, key := none, value := none }
  let _ ← dictPop k
  return some (k, v)

/-- `items`, lru 126-128, exhausted; `keys`, `values` and `__iter__` (131-138, 175-177) are its projections. -/
def items : M K V (List (Option K × Option V)) := do
  let s ← get
  let ns ← walk s.dict.length s.head
  return ns.map fun n => ((s.heap n).key, (s.heap n).value)

/-- `__len__`, lru 141-142. -/
def len (s : Cache K V) : Nat := s.dict.length

/-- `__setitem__`, lru 155-166. -/
def setItem (k : K) (v : V) : M K V Unit := do
  let s ← get
  match s.dict.get? k with
  | some c =>
    update c fun y => { y with value := some v }
    moveToFront c
  | none =>
    if (s.dict.length : Int) < s.max then
      let c ← insert k v
      setHead (some c)
    else
      replaceLru k v

/-- `__delitem__`, lru 169-172. -/
def delItem (k : K) : M K V Unit := do
  if (← get).dict.has k then
    let c ← dictPop (some k)
    moveToEnd c true

/-- The calls that change the cache. -/
inductive Op (K V : Type) where
  | set (k : K) (v : V)
  | getItem (k : K)
  | get (k : K)
  | popItem (k : K)
  | pop
  | del (k : K)
  | clear
  deriving DecidableEq

/-- What a call gives back. -/
inductive Out (K V : Type) where
  | unit
  | value (v : Option V)
  | found (v : Option (Option V))
  | entry (e : Option (Option K × Option V))
  deriving DecidableEq

/-- Run one call. -/
def call (s : Cache K V) : Op K V → Except PyErr (Out K V) × Cache K V
  | .set k v => (do setItem k v; return .unit : M K V _) s
  | .getItem k => (do return .value (← getItem k) : M K V _) s
  | .get k => (do return .found (← getDefault k) : M K V _) s
  | .popItem k => (do return .found (← popItem k) : M K V _) s
  | .pop => (do return .entry (← pop) : M K V _) s
  | .del k => (do delItem k; return .unit : M K V _) s
  | .clear => (do clear; return .unit : M K V _) s

/-- Run several calls; an exception of one call does not stop the caller. -/
def run (s : Cache K V) : List (Op K V) → List (Except PyErr (Out K V)) × Cache K V
  | [] => ([], s)
  | o :: os => let r := call s o
    let rs := run r.2 os
    (r.1 :: rs.1, rs.2)

end Verif.Lru
