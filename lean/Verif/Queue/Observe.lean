import Verif.Queue.Model

/-!
# Vocabulary of the queue properties

What a queue holds is defined by its answers to public calls, not by its pages or its table.
-/

namespace Verif.Queue

open Verif.Py Verif.Queue.Spec

variable {K V S : Type} [DecidableEq K]

/-- The queue `q` holds exactly `l`: every later sequence of public calls is answered as a queue
holding `l` would answer it. -/
def Holds (c : Codec V S) (q : PQ K S) (l : Fifo K V) : Prop :=
  (keys l).Nodup ∧ ∀ ops, Answers l ops (run c q ops).1

/-- The tables a database file can contain: it starts empty, and any number of opens, calls and
shut-downs, each of them possibly interrupted at a commit, have been made on it. -/
inductive OnDisk (c : Codec V S) : Table K S → Prop where
  | new : OnDisk c []
  | opening {t t' p} : OnDisk c t → 0 < p → t' ∈ PQ.openStates p t → OnDisk c t'
  | running {t t' p ops op} : OnDisk c t → 0 < p →
      t' ∈ stepStates c (run c (PQ.open p t) ops).2 op → OnDisk c t'
  | stopping {t t' p ops} : OnDisk c t → 0 < p →
      t' ∈ PQ.shutDownStates (run c (PQ.open p t) ops).2 → OnDisk c t'

/-- The open queues that can occur: any file, any page size but zero, any calls. -/
def Reach (c : Codec V S) (q : PQ K S) : Prop :=
  ∃ t p ops, OnDisk c t ∧ 0 < p ∧ q = (run c (PQ.open p t) ops).2

/-- Opening the table `t` with page size `p` recovers the content `w` but for at most `n` items: what
the opened queue holds is, in some order, a part of `w`, payloads included. -/
def Recovers (c : Codec V S) (p : Nat) (t : Table K S) (w : Fifo K V) (n : Nat) : Prop :=
  ∃ s r, s.Sublist w ∧ w.length ≤ s.length + n ∧ Holds c (PQ.open p t) r ∧ r.Perm s

/-- Values returned by the pops of a history. -/
def popped : List (Op K V) → List (Out K V) → List V
  | .pop :: ops, .val (.ok (some v)) :: outs => v :: popped ops outs
  | _ :: ops, _ :: outs => popped ops outs
  | _, _ => []

/-- Values pushed by a history. -/
def pushed : List (Op K V) → List (K × V)
  | .push v k :: ops => (k, v) :: pushed ops
  | _ :: ops => pushed ops
  | [] => []

/-- The history consists of pushes and pops. -/
def PushPop : List (Op K V) → Prop
  | [] => True
  | .push _ _ :: ops => PushPop ops
  | .pop :: ops => PushPop ops
  | _ => False

end Verif.Queue
