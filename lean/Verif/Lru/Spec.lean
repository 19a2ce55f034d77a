import Verif.Lru.Model

/-!
# Vocabulary of the cache properties

Histories are lists of calls with what they gave back, newest first.
-/

namespace Verif.Lru

open Verif.Py

variable {K V : Type} [DecidableEq K]

/-- A call and what it gave back. -/
abbrev Entry (K V : Type) := Op K V × Except PyErr (Out K V)

/-- `s` is what a cache made with `LRUCache(max)` has become after the history `t` (newest first). -/
inductive After (max : Int) : List (Entry K V) → Cache K V → Prop where
  | new : After max [] (Cache.new max)
  | call {t s} (o : Op K V) : After max t s → After max ((o, (call s o).1) :: t) (call s o).2

/-- The value most recently stored under `k` and not removed since by `pop`, `pop_item`, `del` or `clear`. -/
def stored (k : K) : List (Entry K V) → Option V
  | [] => none
  | (.set k' v, _) :: t => if k' = k then some v else stored k t
  | (.popItem k', _) :: t => if k' = k then none else stored k t
  | (.del k', _) :: t => if k' = k then none else stored k t
  | (.clear, _) :: _ => none
  | (.pop, .ok (.entry (some (some k', _)))) :: t => if k' = k then none else stored k t
  | _ :: t => stored k t

/-- What `peek` answers: `none` is a miss. -/
def sees (s : Cache K V) (k : K) : Except PyErr (Option (Option V)) := (peek k s).1

/-- Calls that cannot remove anything on purpose. -/
def Keeping : Op K V → Prop
  | .set _ _ => True
  | .getItem _ => True
  | .get _ => True
  | _ => False

/-- How many entries the removing calls of a history can have removed: one each, `clear` all of them. -/
def removals : (s : Cache K V) → List (Op K V) → Nat
  | _, [] => 0
  | s, o :: os => (match o with
      | .pop => 1
      | .popItem _ => 1
      | .del _ => 1
      | .clear => len s
      | _ => 0) + removals (call s o).2 os

/-! ### an ideal least-recently-used cache -/

/-- Entries, most recently used first. -/
abbrev Ideal (K V : Type) := List (K × V)

namespace Ideal

/-- The value of `k`. -/
def find (l : Ideal K V) (k : K) : Option V :=
  match l with
  | [] => none
  | (k', v) :: r => if k' = k then some v else find r k

/-- Everything but `k`. -/
def without (l : Ideal K V) (k : K) : Ideal K V := l.filter fun e => e.1 ≠ k

/-- Store: to the front; when full and the key is new, the last entry goes. -/
def set (max : Nat) (l : Ideal K V) (k : K) (v : V) : Ideal K V :=
  match find l k with
  | some _ => (k, v) :: without l k
  | none => if l.length < max then (k, v) :: l else (k, v) :: l.dropLast

/-- Use: to the front. -/
def use (l : Ideal K V) (k : K) : Ideal K V :=
  match find l k with
  | some v => (k, v) :: without l k
  | none => l

/-- The call on the ideal cache; only storing and looking up. -/
def call (max : Nat) (l : Ideal K V) : Op K V → Except PyErr (Out K V) × Ideal K V
  | .set k v => (.ok .unit, set max l k v)
  | .getItem k => match find l k with
    | some v => (.ok (.value (some v)), use l k)
    | none => (.error .keyError, l)
  | .get k => (.ok (.found ((find l k).map some)), use l k)
  | _ => (.ok .unit, l)

end Ideal

/-- The key a call stores or looks up. -/
def Op.key? : Op K V → Option K
  | .set k _ => some k
  | .getItem k => some k
  | .get k => some k
  | _ => none

/-- The key stored first, after one more call. -/
def firstKey (l : Ideal K V) (first : Option K) (o : Op K V) : Option K :=
  match l, o with
  | [], .set k _ => some k
  | [], _ => none
  | _ :: _, _ => first

/-- Histories in which nothing is removed and the key stored first is not used again until the cache is
full (except while it is alone). -/
def Calm (max : Nat) : Ideal K V → Option K → List (Op K V) → Prop
  | _, _, [] => True
  | l, first, o :: os => Keeping o ∧ (o.key? = first → first ≠ none → max ≤ l.length ∨ l.length ≤ 1) ∧
      Calm max (Ideal.call max l o).2 (firstKey l first o) os

/-- Run the ideal cache. -/
def Ideal.run (max : Nat) (l : Ideal K V) : List (Op K V) → List (Except PyErr (Out K V)) × Ideal K V
  | [] => ([], l)
  | o :: os => let r := Ideal.call max l o
    let rs := Ideal.run max r.2 os
    (r.1 :: rs.1, rs.2)

end Verif.Lru
