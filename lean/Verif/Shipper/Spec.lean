import Verif.Shipper.Model

/-!
# What the shipper should deliver
-/

namespace Verif.Shipper.Spec

open Verif.Shipper

/-- The complete lines of a text, without their line feeds; the text after the last line feed is not a line. -/
def linesFrom (cur : Str) : Str → List Str
  | [] => []
  | c :: cs => if c = '\n' then cur :: linesFrom [] cs else linesFrom (cur ++ [c]) cs

def linesOf (text : Str) : List Str := linesFrom [] text

/-- All complete lines ever written to the log, in order. -/
def logged (w : World) : List Str := w.files.flatMap fun f => linesOf f.content

/-- Is the file at the path open in the shipper? -/
def current (s : State) : Bool :=
  match s.proc with
  | .running t _ _ => decide (t.fd + 1 = s.world.files.length)
  | _ => false

/-- A schedule without kills and lost answers, in which the file is only rotated while the shipper has the current file open: it is
rotated at most once between two polls. -/
def Orderly (parses : Str → Bool) : State → List Event → Prop
  | _, [] => True
  | s, ev :: evs =>
    (match ev with
     | .moveAway => current s = true
     | .crash => False
     | .exec .unanswered => False
     | _ => True) ∧ Orderly parses (step parses s ev) evs

/-- The complete lines of the files that are not at the path any more. -/
def gone (w : World) : List Str :=
  (if w.linked then w.files.dropLast else w.files).flatMap fun f => linesOf f.content

/-- A schedule with any number of kills and lost answers. The file is rotated while the shipper has it open, or while the shipper is down
and has delivered everything. The shipper is killed only when the lines of the files that were rotated away are delivered. The new file
does not have the inode number of the file of the last saved position. -/
def Careful (parses : Str → Bool) : State → List Event → Prop
  | _, [] => True
  | s, ev :: evs =>
    (match ev with
     | .moveAway => current s = true ∨ (s.proc = .down ∧ (logged s.world).Sublist s.received)
     | .create inode => ∀ p, s.saved = some p → p.1 ≠ inode
     | .crash => (gone s.world).Sublist s.received
     | _ => True) ∧ Careful parses (step parses s ev) evs

end Verif.Shipper.Spec
