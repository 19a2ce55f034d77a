import Verif.Wire.Model
import Verif.Stream.Model
import Verif.Client.Model

/-!
# Vocabulary of C60
-/

namespace Verif.Wire.Spec

open Verif.Py Verif.Wire Verif.Span Verif.Server

/-- A number with a fraction or an exponent, as JSON writes it. -/
def FloatText (t : Str) : Prop :=
  ∃ sign ip fr ex : Str, t = sign ++ ip ++ fr ++ ex ∧ (sign = [] ∨ sign = ['-']) ∧
    (ip = ['0'] ∨ (ip ≠ [] ∧ ip.head? ≠ some '0' ∧ ∀ c ∈ ip, c.isDigit = true)) ∧
    (fr = [] ∨ ∃ ds, fr = '.' :: ds ∧ ds ≠ [] ∧ ∀ c ∈ ds, c.isDigit = true) ∧
    (ex = [] ∨ ∃ e s ds, ex = e :: (s ++ ds) ∧ (e = 'e' ∨ e = 'E') ∧ (s = [] ∨ s = ['-'] ∨ s = ['+']) ∧ ds ≠ [] ∧ ∀ c ∈ ds, c.isDigit = true) ∧
    (fr ≠ [] ∨ ex ≠ [])

mutual

/-- What can be sent: whole numbers of at most 4300 digits, finite floats that the float library writes and reads back, dictionaries with
distinct keys. -/
def Sendable (F : Floats) : Json → Prop
  | .int i => (Nat.toDigits 10 i.natAbs).length ≤ 4300
  | .float r => ∃ t, F.text r = some t ∧ FloatText t ∧ F.parse t = r
  | .arr items => SendableItems F items
  | .obj fields => (fields.map Prod.fst).Nodup ∧ SendableFields F fields
  | _ => True

def SendableItems (F : Floats) : List Json → Prop
  | [] => True
  | v :: vs => Sendable F v ∧ SendableItems F vs

def SendableFields (F : Floats) : List (String × Json) → Prop
  | [] => True
  | (_, v) :: xs => Sendable F v ∧ SendableFields F xs

end

/-- The float library writes numbers. -/
def WritesNumbers (F : Floats) : Prop := ∀ r t, F.text r = some t → FloatText t

/-- Blanks, as JSON has them. -/
def Blank (t : Str) : Prop := ∀ c ∈ t, c = ' ' ∨ c = '\t' ∨ c = '\n' ∨ c = '\r'

/-- White space at the ends of a line, which Python's `strip` removes. -/
def White (c : Char) : Prop :=
  c.toNat ∈ [9, 10, 11, 12, 13, 28, 29, 30, 31, 32, 0x85, 0xa0, 0x1680, 0x2000, 0x2001, 0x2002, 0x2003, 0x2004, 0x2005, 0x2006, 0x2007, 0x2008,
    0x2009, 0x200a, 0x2028, 0x2029, 0x202f, 0x205f, 0x3000]

instance (c : Char) : Decidable (White c) := by unfold White; infer_instance

/-- A server that reads and writes messages as in `Wire.Model`. -/
structure Speaks {σ : Type} (F : Floats) (E : Stream.Endpoint SpanKey σ) : Prop where
  loads : E.server.loads = serverLoads F
  span : E.server.spanOf = spanOf
  dumps : ∀ r, E.dumps r = some (responseText F r)

/-- A client that reads messages as in `Wire.Model`. -/
structure Hears {β : Type} (F : Floats) (L : Client.Lib β) : Prop where
  loads : L.loads = clientLoads F
  span : ∀ j, L.spanOk j = (spanOf j).isSome

/-- The server's work on the request `r` ends with the response `resp`. -/
def Handles {σ : Type} (S : Server SpanKey σ) (r : Req SpanKey) (w : World SpanKey σ) (resp : Resp SpanKey) (w' : World SpanKey σ) : Prop :=
  withContext r.spanKey (serve S r) w = (.ok resp, w') ∨
    ∃ e, withContext r.spanKey (serve S r) w = (.error e, w') ∧ respond (some r.spanKey) e = .ok resp

end Verif.Wire.Spec
