import Verif.Py.Basic

/-!
# What a persistent queue should do

A queue is a list of (key, value) pairs, oldest first. Nothing here mentions pages or tables.
-/

namespace Verif.Queue.Spec

variable {K V : Type} [DecidableEq K]

/-- Contents, oldest first. -/
abbrev Fifo (K V : Type) := List (K × V)

/-- The keys held. -/
def keys (l : Fifo K V) : List K := l.map Prod.fst

/-- A push appends, unless the key is held already. -/
def push (l : Fifo K V) (v : V) (k : K) : Fifo K V :=
  if k ∈ keys l then l else l ++ [(k, v)]

/-- The value held under a key. -/
def lookup (l : Fifo K V) (k : K) : Option V :=
  (l.find? (fun e => e.1 = k)).map Prod.snd

/-- Everything but the given key. -/
def without (l : Fifo K V) (k : K) : Fifo K V := l.filter (fun e => e.1 ≠ k)

/-- What a pop returns. -/
def front (l : Fifo K V) : Option V := l.head?.map Prod.snd

open Verif.Py

/-- The public operations of an open queue. -/
inductive Op (K V : Type) where
  | push (v : V) (k : K)
  | pop
  | inspect (k : K)
  | popKey (k : K)
  | firstKeys (n : Int)
  | size
  | clear
  deriving Repr

/-- What an operation returns. -/
inductive Out (K V : Type) where
  | key (r : Except PyErr K)
  | val (r : Except PyErr (Option V))
  | keys (ks : List K)
  | num (n : Nat)
  | unit

/-- What one call on a queue holding `l` may return, and what the queue holds afterwards.
`firstKeys` may list any initial part of what was asked for (property C10 asks for more). -/
def Allowed (l : Fifo K V) : Op K V → Out K V → Fifo K V → Prop
  | .push v k, o, l' => o = .key (.ok k) ∧ l' = push l v k
  | .pop, o, l' => o = .val (.ok (front l)) ∧ l' = l.tail
  | .inspect k, o, l' => o = .val (.ok (lookup l k)) ∧ l' = l
  | .popKey k, o, l' => o = .val (.ok (lookup l k)) ∧ l' = without l k
  | .firstKeys n, o, l' => (∃ ks, o = .keys ks ∧ ks <+: (keys l).take n.toNat) ∧ l' = l
  | .size, o, l' => o = .num l.length ∧ l' = l
  | .clear, o, l' => o = .unit ∧ l' = []

/-- The answers `outs` to the calls `ops` are those of a queue that holds `l` at first. -/
def Answers (l : Fifo K V) : List (Op K V) → List (Out K V) → Prop
  | [], outs => outs = []
  | op :: ops, outs => ∃ o outs' l', outs = o :: outs' ∧ Allowed l op o l' ∧ Answers l' ops outs'

end Verif.Queue.Spec
