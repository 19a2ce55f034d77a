import Mathlib.Data.List.Basic
import Verif.Py.Basic

/-!
# Model of span identifiers

`ekosis/data_transfer_objects/span_id.py` and the class `SpanKey` of
`ekosis/data_transfer_objects/json_protocol.py`, together with the parts of Python they use:
`int(s, 16)`, `'%032x'`, `int.to_bytes`, `int.from_bytes`, `uuid.UUID(hex=...)` and `str(uuid)`
(CPython's `Lib/uuid.py` and `Objects/longobject.c`).

Simplification: text is a list of characters, and only ASCII white space and digits are given their
meaning (`int` also accepts other Unicode digits and spaces).
-/

namespace Verif.Span

open Verif.Py

/-- A byte. -/
abbrev Byte := Fin 256

/-! ### Python's integers as text and bytes -/

/-- Value of a hexadecimal digit, `_PyLong_DigitValue` of longobject.c. -/
def hexVal (c : Char) : Option Nat :=
  if 48 ≤ c.toNat ∧ c.toNat ≤ 57 then some (c.toNat - 48)
  else if 97 ≤ c.toNat ∧ c.toNat ≤ 102 then some (c.toNat - 87)
  else if 65 ≤ c.toNat ∧ c.toNat ≤ 70 then some (c.toNat - 55)
  else none

/-- ASCII white space, `Py_ISSPACE`. -/
def isSpace (c : Char) : Bool := c.toNat = 32 || (9 ≤ c.toNat && c.toNat ≤ 13)

/-- `long_from_binary_base` of longobject.c for base 16: digits with single underscores between them.
Arguments: text, whether the previous character was an underscore, value and number of digits so far.
Returns value, digit count and the rest of the text; `none` stands for `ValueError`. -/
def scan : List Char → Bool → Nat → Nat → Option (Nat × Nat × List Char)
  | [], prev, acc, n => if prev then none else some (acc, n, [])
  | c :: cs, prev, acc, n =>
    if c = '_' then (if prev then none else scan cs true acc n)
    else match hexVal c with
      | some d => scan cs false (acc * 16 + d) (n + 1)
      | none => if prev then none else some (acc, n, c :: cs)

/-- Skip `0x` or `0X` and one underscore after it, `PyLong_FromString` of longobject.c. -/
def skipPrefix : List Char → List Char
  | '0' :: 'x' :: '_' :: cs => cs
  | '0' :: 'X' :: '_' :: cs => cs
  | '0' :: 'x' :: cs => cs
  | '0' :: 'X' :: cs => cs
  | cs => cs

/-- The text after the sign: optional prefix, no leading underscore, at least one digit, then only
white space; `PyLong_FromString`. -/
def parseMag (s : List Char) : Option Nat :=
  let s := skipPrefix s
  if s.head? = some '_' then none
  else match scan s false 0 0 with
    | none => none
    | some (v, n, rest) => if n = 0 then none else if rest.all isSpace then some v else none

/-- The sign applied to a magnitude, `PyLong_FromString`. -/
def signed (neg : Bool) : Option Nat → Option Int
  | none => none
  | some n => if neg then some (-(n : Int)) else some (n : Int)

/-- `int(s, 16)`: white space, optional sign, magnitude; `PyLong_FromString`. -/
def pyInt16 (s : List Char) : Option Int :=
  match s.dropWhile isSpace with
  | '-' :: r => signed true (parseMag r)
  | '+' :: r => signed false (parseMag r)
  | r => signed false (parseMag r)

/-- The last `w` hexadecimal digits of `n`, most significant first. This is `'%0wx' % n` whenever
`n < 16 ^ w`, which holds for every value formatted in the modelled code. -/
def hexPad : Nat → Nat → List Char
  | 0, _ => []
  | w + 1, n => hexPad w (n / 16) ++ [Nat.digitChar (n % 16)]

/-- The last `w` bytes of `n`, most significant first: `n.to_bytes(w, 'big')` whenever
`n < 256 ^ w`. -/
def bytesPad : Nat → Nat → List Byte
  | 0, _ => []
  | w + 1, n => bytesPad w (n / 256) ++ [Fin.ofNat 256 (n % 256)]

/-- `int.from_bytes(b, 'big')`. -/
def fromBytesBE (b : List Byte) : Nat := b.foldl (fun a x => a * 256 + x.val) 0

/-! ### `SpanId` -/

/-- `SpanId`, span_id.py 6-27: the stored integer. -/
structure SpanId where
  value : Int
  deriving DecidableEq, Repr

namespace SpanId

/-- `SpanId(int_=v)`, span_id.py 12-14, 27. -/
def ofInt (v : Int) : Except PyErr SpanId :=
  if 0 ≤ v ∧ v < 2 ^ 64 then .ok ⟨v⟩ else .error .valueError

/-- `SpanId(bytes_=b)`, span_id.py 16-20, 27. -/
def ofBytes (b : List Byte) : Except PyErr SpanId :=
  if b.length ≠ 8 then .error .valueError else .ok ⟨fromBytesBE b⟩

/-- `SpanId(hex_=s)`, span_id.py 22-25, 27. -/
def ofHex (s : List Char) : Except PyErr SpanId :=
  if s.length ≠ 16 then .error .valueError
  else match pyInt16 s with
    | none => .error .valueError
    | some v => .ok ⟨v⟩

/-- A value handed to the pydantic validator. -/
inductive Raw where
  | spanId (s : SpanId)
  | int (v : Int)
  | bytes (b : List Byte)
  | str (s : List Char)
  | other

/-- `SpanId._validate`, span_id.py 31-40. -/
def validate : Raw → Except PyErr SpanId
  | .spanId s => .ok s
  | .int v => ofInt v
  | .bytes b => ofBytes b
  | .str s => ofHex s
  | .other => .error .valueError

/-- `SpanId.hex`, span_id.py 58-60: `f"{v:016x}"`, sign included in the width. -/
def hex (s : SpanId) : List Char :=
  if s.value < 0 then '-' :: hexPad 15 s.value.natAbs else hexPad 16 s.value.natAbs

/-- `SpanId.bytes`, span_id.py 62-64: `to_bytes` raises for negative numbers and for numbers that
do not fit. -/
def bytes (s : SpanId) : Except PyErr (List Byte) :=
  if 0 ≤ s.value ∧ s.value < 2 ^ 64 then .ok (bytesPad 8 s.value.natAbs) else .error .overflowError

end SpanId

/-! ### `uuid.UUID` -/

/-- `s.replace(pat, '')` for a non-empty pattern. `fuel` is the length of the text. -/
def removeAll (pat : List Char) : Nat → List Char → List Char
  | 0, s => s
  | _, [] => []
  | fuel + 1, c :: cs =>
    if pat.isPrefixOf (c :: cs) then removeAll pat fuel ((c :: cs).drop pat.length)
    else c :: removeAll pat fuel cs

/-- `s.strip('{}')`. -/
def stripBraces (s : List Char) : List Char :=
  ((s.dropWhile (fun c => c = '{' || c = '}')).reverse.dropWhile (fun c => c = '{' || c = '}')).reverse

/-- `uuid.UUID(hex=s).int`, Lib/uuid.py. -/
def uuidOfHex (s : List Char) : Except PyErr Nat :=
  let s := removeAll ['u', 'r', 'n', ':'] s.length s
  let s := removeAll ['u', 'u', 'i', 'd', ':'] s.length s
  let s := (stripBraces s).filter (fun c => c ≠ '-')
  if s.length ≠ 32 then .error .valueError
  else match pyInt16 s with
    | none => .error .valueError
    | some v => if 0 ≤ v ∧ v < 2 ^ 128 then .ok v.toNat else .error .valueError

/-- `str(uuid)`, Lib/uuid.py. -/
def uuidText (n : Nat) : List Char :=
  let h := hexPad 32 n
  h.take 8 ++ '-' :: (h.drop 8).take 4 ++ '-' :: (h.drop 12).take 4 ++ '-' :: (h.drop 16).take 4 ++ '-' :: h.drop 20

/-- `uuid.UUID(bytes=b).int`, Lib/uuid.py. -/
def uuidOfBytes (b : List Byte) : Except PyErr Nat :=
  if b.length ≠ 16 then .error .valueError else .ok (fromBytesBE b)

/-! ### `SpanKey` -/

/-- `SpanKey`, json_protocol.py 8-10. A `uuid.UUID` always lies in 0..2^128-1 (its constructor
checks), which `trace_lt` of `SpanKey.Valid` records where it matters. -/
structure SpanKey where
  trace : Nat
  span : SpanId
  deriving DecidableEq, Repr

namespace SpanKey

/-- `SpanKey.from_bytes`, json_protocol.py 16-21. -/
def ofBytes (d : List Byte) : Except PyErr SpanKey := do
  let t ← uuidOfBytes (d.take 16)
  let s ← SpanId.ofBytes (d.drop 16)
  return ⟨t, s⟩

/-- `data.find(':')`, json_protocol.py 25. `none` is Python's -1. -/
def findColon (s : List Char) : Option Nat := s.findIdx? (fun c => c = ':')

/-- `SpanKey.from_hex`, json_protocol.py 23-31. Without a colon the slices are `data[:-1]` and
`data[0:]`. -/
def ofHex (s : List Char) : Except PyErr SpanKey := do
  let (a, b) := match findColon s with
    | some i => (s.take i, s.drop (i + 1))
    | none => (s.dropLast, s)
  let t ← uuidOfHex a
  let i ← SpanId.ofHex b
  return ⟨t, i⟩

/-- `SpanKey.bytes`, json_protocol.py 33-35. -/
def bytes (k : SpanKey) : Except PyErr (List Byte) := do
  let b ← k.span.bytes
  return bytesPad 16 k.trace ++ b

/-- `SpanKey.__str__`, json_protocol.py 53-54. -/
def text (k : SpanKey) : List Char := uuidText k.trace ++ ':' :: k.span.hex

/-- `SpanKey.__eq__` between two keys, json_protocol.py 40-42. -/
def eq (a b : SpanKey) : Except PyErr Bool := do
  let x ← a.bytes
  let y ← b.bytes
  return x = y

/-- `SpanKey.__eq__` with a string, json_protocol.py 43-44. -/
def eqText (a : SpanKey) (s : List Char) : Except PyErr Bool := do
  let x ← a.bytes
  let k ← ofHex s
  let y ← k.bytes
  return x = y

end SpanKey

end Verif.Span
