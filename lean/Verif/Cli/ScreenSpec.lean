import Verif.Cli.Screen
import Verif.Cli.Spec
import Verif.Wire.Spec

/-!
# Vocabulary of C88
-/

namespace Verif.Cli.Spec

open Verif.Py Verif.Wire Verif.Wire.Spec

mutual

/-- A value that Python can hold: whole numbers of at most 4300 digits (more cannot be turned into text), floats as `fl` says, dictionaries with
distinct keys. -/
def Fine (fl : String → Prop) : Json → Prop
  | .int i => (Nat.toDigits 10 i.natAbs).length ≤ 4300
  | .float r => fl r
  | .arr items => FineItems fl items
  | .obj fields => (fields.map Prod.fst).Nodup ∧ FineFields fl fields
  | _ => True

def FineItems (fl : String → Prop) : List Json → Prop
  | [] => True
  | v :: vs => Fine fl v ∧ FineItems fl vs

def FineFields (fl : String → Prop) : List (String × Json) → Prop
  | [] => True
  | (_, v) :: xs => Fine fl v ∧ FineFields fl xs

end

/-- A float that the float library writes and reads back, or one of those that are no numbers. -/
def FloatFine (P : Floats) (r : String) : Prop :=
  (∃ t, P.text r = some t ∧ FloatText t ∧ P.parse t = r) ∨ (P.text r = none ∧ (r = "nan" ∨ r = "inf" ∨ r = "-inf"))

/-- A value that can be printed. -/
def Printable (P : Floats) (j : Json) : Prop := Fine (FloatFine P) j

/-- What Python counts as false. -/
def Nothing (j : Json) : Prop :=
  j = .null ∨ j = .bool false ∨ j = .int 0 ∨ j = .float "0.0" ∨ j = .float "-0.0" ∨ j = .str "" ∨ j = .arr [] ∨ j = .obj []

/-- The numbers of entries have at most 4300 digits. -/
def Sized : QueueData → Prop
  | .endpoint _ _ _ p e => (Nat.toDigits 10 p.natAbs).length ≤ 4300 ∧ (Nat.toDigits 10 e.natAbs).length ≤ 4300
  | .sender _ _ p e => (Nat.toDigits 10 p.natAbs).length ≤ 4300 ∧ (Nat.toDigits 10 e.natAbs).length ≤ 4300
  | .keys _ => True

/-- Under the heading the screen shows a text that reads as the value. -/
def Reads (P : Floats) (text : Str) (heading : String) (j : Json) : Prop :=
  ∃ before t after, text = before ++ '\n' :: (heading.toList ++ '\n' :: (t ++ '\n' :: after)) ∧ loads P t = .ok j

/-- The kinds of answers that are printed. -/
inductive Verdict where
  | noQueue
  | noRequest
  | done
  deriving DecidableEq

/-- What an answer says. -/
def verdict {I D : Type} : Answer I D → Option Verdict
  | .noQueue => some .noQueue
  | .noRequest => some .noRequest
  | .info _ => some .done
  | .keys _ => some .done
  | .request _ _ => some .done
  | _ => none

/-- The information about an endpoint, as an operator reads it. -/
def infoJson (queue : Str) (i : HInfo) : Json :=
  .obj [("route_key", .str (String.ofList queue)), ("receiving_paused", .bool i.receivingPaused), ("processing_paused", .bool i.processingPaused),
    ("database_sizes", .obj [("pending", .int i.pending), ("error", .int i.error)])]

/-- The same about a sender. -/
def sInfoJson (queue : Str) (i : SInfo) : Json :=
  .obj [("route_key", .str (String.ofList queue)), ("send_process_paused", .bool i.paused),
    ("database_sizes", .obj [("pending", .int i.pending), ("error", .int i.error)])]

end Verif.Cli.Spec
