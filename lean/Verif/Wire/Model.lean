import Verif.Py.Json
import Verif.Py.Text
import Verif.Span.Model
import Verif.Server.Model

/-!
# The text of messages

`model_dump_json()` as used in client_base.py 75 and stream_server_base.py 40, and `json.loads` as used in server_base.py 35 and
client_base.py 77 (CPython 3.11, json/decoder.py and json/scanner.py; where the C version of the scanner differs from them, the C version),
with the fields of json_protocol.py 8-66. Texts are lists of characters.

Simplifications: no limit on nesting. The text of a float and the float of a text are parameters (`Floats`). A text with an unpaired surrogate
escape, which is no list of Lean's characters, counts as unreadable.
-/

namespace Verif.Wire

open Verif.Py Verif.Span Verif.Server

/-- `text r` is what is written for the float with representation `r` (nothing for NaN and the infinities), `parse t` the representation of
`float(t)`. -/
structure Floats where
  text : String → Option Str
  parse : Str → String

/-! ### Writing -/

/-- One hexadecimal digit. -/
def hexDigit (n : Nat) : Char := Nat.digitChar (n % 16)

/-- How a character is written within a text by pydantic-core: two-character escapes, `\u00xx` for other control characters, otherwise the
character. -/
def escape (c : Char) : Str :=
  if c = '"' then ['\\', '"']
  else if c = '\\' then ['\\', '\\']
  else if c = '\n' then ['\\', 'n']
  else if c = '\r' then ['\\', 'r']
  else if c = '\t' then ['\\', 't']
  else if c = '\x08' then ['\\', 'b']
  else if c = '\x0c' then ['\\', 'f']
  else if c.toNat < 32 then ['\\', 'u', '0', '0', hexDigit (c.toNat / 16), hexDigit c.toNat]
  else [c]

/-- A text in quotes. -/
def writeStr (s : String) : Str := '"' :: (s.toList.flatMap escape ++ ['"'])

/-- A whole number. -/
def writeInt : Int → Str
  | .ofNat n => Str.ofNat n
  | .negSucc n => '-' :: Str.ofNat (n + 1)

mutual

/-- `model_dump_json()`: no spaces; NaN and the infinities become `null`. -/
def write (F : Floats) : Json → Str
  | .null => "null".toList
  | .bool true => "true".toList
  | .bool false => "false".toList
  | .int i => writeInt i
  | .float r => (F.text r).getD "null".toList
  | .str s => writeStr s
  | .arr items => '[' :: (writeItems F items ++ [']'])
  | .obj fields => '{' :: (writeFields F fields ++ ['}'])

/-- The values of a list, separated by commas. -/
def writeItems (F : Floats) : List Json → Str
  | [] => []
  | [v] => write F v
  | v :: v' :: vs => write F v ++ ',' :: writeItems F (v' :: vs)

/-- The pairs of a dictionary, separated by commas. -/
def writeFields (F : Floats) : List (String × Json) → Str
  | [] => []
  | [(k, v)] => writeStr k ++ ':' :: write F v
  | (k, v) :: x :: xs => writeStr k ++ ':' :: (write F v ++ ',' :: writeFields F (x :: xs))

end

/-! ### Reading -/

/-- Why a text cannot be read: `JSONDecodeError`; the `ValueError` of `int()` for more than 4300 digits; an unpaired surrogate. -/
inductive Bad where
  | decode
  | digits
  | surrogate
  deriving DecidableEq

/-- `WHITESPACE`, decoder.py 132. -/
def isWs (c : Char) : Bool := c = ' ' || c = '\t' || c = '\n' || c = '\r'

/-- `_w(s, end).end()`. -/
def skip (s : Str) : Str := s.dropWhile isWs

/-- The value of a hexadecimal digit. -/
def hexVal (c : Char) : Option Nat :=
  if '0' ≤ c ∧ c ≤ '9' then some (c.toNat - 48)
  else if 'a' ≤ c ∧ c ≤ 'f' then some (c.toNat - 87)
  else if 'A' ≤ c ∧ c ≤ 'F' then some (c.toNat - 55)
  else none

/-- `_decode_uXXXX`, decoder.py 59-67, with four hexadecimal digits as in the C version. -/
def hex4 (a b c d : Char) : Option Nat :=
  match hexVal a, hexVal b, hexVal c, hexVal d with
  | some a, some b, some c, some d => some (((a * 16 + b) * 16 + c) * 16 + d)
  | _, _, _, _ => none

/-- `BACKSLASH`, decoder.py 54-57. -/
def simple (c : Char) : Option Char :=
  if c = '"' then some '"'
  else if c = '\\' then some '\\'
  else if c = '/' then some '/'
  else if c = 'b' then some '\x08'
  else if c = 'f' then some '\x0c'
  else if c = 'n' then some '\n'
  else if c = 'r' then some '\r'
  else if c = 't' then some '\t'
  else none

/-- One more character in front. -/
def consChar (c : Char) : Except Bad (Str × Str) → Except Bad (Str × Str)
  | .ok (s, r) => .ok (c :: s, r)
  | .error e => .error e

/-- `scanstring` with `strict`, decoder.py 69-127: the text up to the closing quote, and what follows. -/
def scanStr : Str → Except Bad (Str × Str)
  | [] => .error .decode
  | c :: r =>
    if c = '"' then .ok ([], r)
    else if c = '\\' then
      match r with
      | [] => .error .decode
      | e :: r1 =>
        if e = 'u' then
          match r1 with
          | a :: b :: c :: d :: r2 => match hex4 a b c d with
            | none => .error .decode
            | some u =>
              if 0xd800 ≤ u ∧ u ≤ 0xdbff then
                match r2 with
                | x :: y :: a :: b :: c :: d :: r3 =>
                  if x = '\\' ∧ y = 'u' then match hex4 a b c d with
                    | none => .error .decode
                    | some v =>
                      if 0xdc00 ≤ v ∧ v ≤ 0xdfff then consChar (Char.ofNat (0x10000 + ((u - 0xd800) * 1024 + (v - 0xdc00)))) (scanStr r3)
                      else .error .surrogate
                  else .error .surrogate
                | _ => .error .surrogate
              else if 0xdc00 ≤ u ∧ u ≤ 0xdfff then .error .surrogate
              else consChar (Char.ofNat u) (scanStr r2)
          | _ => .error .decode
        else match simple e with
          | none => .error .decode
          | some ch => consChar ch (scanStr r1)
    else if c.toNat < 32 then .error .decode
    else consChar c (scanStr r)
termination_by structural s => s

/-- The whole part of `NUMBER_RE`, scanner.py 11-13: `0`, or digits that do not start with `0`. -/
def whole : Str → Option (Str × Str)
  | [] => none
  | d :: r =>
    if d = '0' then some (['0'], r)
    else if d.isDigit then some ((d :: r).takeWhile Char.isDigit, (d :: r).dropWhile Char.isDigit)
    else none

/-- Its optional fraction. -/
def fraction : Str → Str × Str
  | c :: d :: r =>
    if c = '.' ∧ d.isDigit then (c :: (d :: r).takeWhile Char.isDigit, (d :: r).dropWhile Char.isDigit) else ([], c :: d :: r)
  | s => ([], s)

/-- Its optional exponent. -/
def exponent (s : Str) : Str × Str :=
  match s with
  | c :: d :: r =>
    if c = 'e' ∨ c = 'E' then
      if d.isDigit then (c :: (d :: r).takeWhile Char.isDigit, (d :: r).dropWhile Char.isDigit)
      else if d = '-' ∨ d = '+' then
        match r with
        | f :: r' => if f.isDigit then (c :: d :: (f :: r').takeWhile Char.isDigit, (f :: r').dropWhile Char.isDigit) else ([], s)
        | [] => ([], s)
      else ([], s)
    else ([], s)
  | _ => ([], s)

/-- The number that a text of digits, with or without sign, stands for; `int()` refuses more than 4300 digits. -/
def intOf (neg : Bool) (digits : Str) : Except Bad Int :=
  if digits.length > 4300 then .error .digits
  else .ok (if neg then -(Nat.ofDigitChars 10 digits 0 : Int) else (Nat.ofDigitChars 10 digits 0 : Int))

/-- A number without its sign, scanner.py 48-55; `none` if there is none. -/
def unsigned (F : Floats) (neg : Bool) (s : Str) : Option (Except Bad (Json × Str)) :=
  match whole s with
  | none => none
  | some (ds, r) =>
    let (fr, r1) := fraction r
    let (ex, r2) := exponent r1
    if fr = [] ∧ ex = [] then
      match intOf neg ds with
      | .ok i => some (.ok (.int i, r2))
      | .error e => some (.error e)
    else some (.ok (.float (F.parse ((if neg then ['-'] else []) ++ ds ++ fr ++ ex)), r2))

/-- The constants that JSON does not have, scanner.py 56-63. -/
def scanConstant (s : Str) : Except Bad (Json × Str) :=
  if "NaN".toList.isPrefixOf s then .ok (.float "nan", s.drop 3)
  else if "Infinity".toList.isPrefixOf s then .ok (.float "inf", s.drop 8)
  else if "-Infinity".toList.isPrefixOf s then .ok (.float "-inf", s.drop 9)
  else .error .decode

/-- Numbers and constants, scanner.py 48-63. -/
def scanNumber (F : Floats) : Str → Except Bad (Json × Str)
  | [] => .error .decode
  | c :: r =>
    if c = '-' then (unsigned F true r).getD (scanConstant (c :: r))
    else (unsigned F false (c :: r)).getD (scanConstant (c :: r))

/-- `dict(pairs)`: a later pair with the same key replaces the value. -/
def dictOf (pairs : List (String × Json)) : List (String × Json) := pairs.foldl (fun d x => Dict.set d x.1 x.2) []

mutual

/-- `_scan_once`, scanner.py 28-63. The number only makes the definition total: it bounds the calls, and the length of the text is enough. -/
def scan (F : Floats) : Nat → Str → Except Bad (Json × Str)
  | 0, _ => .error .decode
  | _ + 1, [] => .error .decode
  | n + 1, c :: r =>
    if c = '"' then
      match scanStr r with
      | .ok (s, r) => .ok (.str (String.ofList s), r)
      | .error e => .error e
    else if c = '{' then
      match skip r with
      | [] => .error .decode
      | c :: r =>
        if c = '}' then .ok (.obj [], r)
        else if c = '"' then
          match scanFields F n r with
          | .ok (ps, r) => .ok (.obj (dictOf ps), r)
          | .error e => .error e
        else .error .decode
    else if c = '[' then
      match skip r with
      | [] => .error .decode
      | d :: r =>
        if d = ']' then .ok (.arr [], r)
        else match scanItems F n (d :: r) with
          | .ok (vs, r) => .ok (.arr vs, r)
          | .error e => .error e
    else if "null".toList.isPrefixOf (c :: r) then .ok (.null, (c :: r).drop 4)
    else if "true".toList.isPrefixOf (c :: r) then .ok (.bool true, (c :: r).drop 4)
    else if "false".toList.isPrefixOf (c :: r) then .ok (.bool false, (c :: r).drop 5)
    else scanNumber F (c :: r)

/-- The loop of `JSONArray`, decoder.py 228-252, from the start of a value. -/
def scanItems (F : Floats) : Nat → Str → Except Bad (List Json × Str)
  | 0, _ => .error .decode
  | n + 1, s =>
    match scan F n s with
    | .error e => .error e
    | .ok (v, r) => match skip r with
      | [] => .error .decode
      | c :: r =>
        if c = ']' then .ok ([v], r)
        else if c = ',' then
          match scanItems F n (skip r) with
          | .ok (vs, r) => .ok (v :: vs, r)
          | .error e => .error e
        else .error .decode

/-- The loop of `JSONObject`, decoder.py 164-205, from after the quote that opens a key. -/
def scanFields (F : Floats) : Nat → Str → Except Bad (List (String × Json) × Str)
  | 0, _ => .error .decode
  | n + 1, s =>
    match scanStr s with
    | .error e => .error e
    | .ok (k, r) => match skip r with
      | [] => .error .decode
      | c :: r =>
        if c = ':' then
          match scan F n (skip r) with
          | .error e => .error e
          | .ok (v, r) => match skip r with
            | [] => .error .decode
            | c :: r =>
              if c = '}' then .ok ([(String.ofList k, v)], r)
              else if c = ',' then
                match skip r with
                | [] => .error .decode
                | c :: r =>
                  if c = '"' then
                    match scanFields F n r with
                    | .ok (ps, r) => .ok ((String.ofList k, v) :: ps, r)
                    | .error e => .error e
                  else .error .decode
              else .error .decode
        else .error .decode

end

/-- `json.loads(s)`, json/__init__.py 299-359 with `decode`, decoder.py 332-341. -/
def loads (F : Floats) (s : Str) : Except Bad Json :=
  if s.head? = some '\ufeff' then .error .decode
  else match scan F (s.length + 1) (skip s) with
    | .error e => .error e
    | .ok (j, r) => if skip r = [] then .ok j else .error .decode

/-! ### Messages -/

/-- A `SpanKey` as a field: `trace_id` is written by `str(uuid)`, `span_id` by `SpanId.hex`, json_protocol.py 8-10, span_id.py 44-51. -/
def spanJson (k : SpanKey) : Json :=
  .obj [("trace_id", .str (String.ofList (uuidText k.trace))), ("span_id", .str (String.ofList k.span.hex))]

/-- Validation of such a field. The texts accepted for `trace_id` are those of `uuid.UUID(hex=..)`; `_validate` of span_id.py 32-41 takes numbers
(for Python also `True` and `False`) and texts from JSON. -/
def spanOf : Json → Option SpanKey
  | .obj fields => match Dict.get? fields "trace_id", Dict.get? fields "span_id" with
    | some (.str t), some (.str s) => match uuidOfHex t.toList, SpanId.ofHex s.toList with
      | .ok t, .ok s => some ⟨t, s⟩
      | _, _ => none
    | some (.str t), some (.int i) => match uuidOfHex t.toList, SpanId.ofInt i with
      | .ok t, .ok s => some ⟨t, s⟩
      | _, _ => none
    | some (.str t), some (.bool b) => match uuidOfHex t.toList, SpanId.ofInt (if b then 1 else 0) with
      | .ok t, .ok s => some ⟨t, s⟩
      | _, _ => none
    | _, _ => none
  | _ => none

/-- `RequestDTO(..).model_dump_json()`, client_base.py 74-75: the fields in the order of json_protocol.py 57-60. -/
def requestJson (r : Req SpanKey) : Json := .obj [("route_key", .str r.routeKey), ("span_key", spanJson r.spanKey), ("data", r.data)]

/-- A value in a response: `None`, a span key, a request, a model, or anything else. -/
def valJson : Val SpanKey → Json
  | .none => .null
  | .span k => spanJson k
  | .req r => requestJson r
  | .model j => j
  | .other j => j

/-- `ResponseDTO.model_dump_json()`, stream_server_base.py 41: the fields in the order of json_protocol.py 63-66. -/
def responseJson (r : Resp SpanKey) : Json :=
  .obj [("span_key", match r.spanKey with | none => .null | some k => spanJson k), ("status", .int r.status), ("data", valJson r.data)]

/-- The line a client sends, client_base.py 75-77. -/
def requestLine (F : Floats) (r : Req SpanKey) : String := String.ofList (write F (requestJson r)) ++ "\n"

/-- The text a server sends, without the line feed. -/
def responseText (F : Floats) (r : Resp SpanKey) : String := String.ofList (write F (responseJson r))

/-- `json.loads(request_text.strip())`, server_base.py 35. The message of the exception is left out. A `ValueError` is not a `JSONDecodeError`. -/
def serverLoads (F : Floats) (text : String) : Except Exc Json :=
  match loads F (Str.strip text.toList) with
  | .ok j => .ok j
  | .error .decode => .error (.json "")
  | .error .digits => .error (.py .valueError)
  | .error .surrogate => .error (.json "")

/-- `json.loads(response_str)`, client_base.py 77; every exception is one. -/
def clientLoads (F : Floats) (text : String) : Option Json :=
  match loads F text.toList with
  | .ok j => some j
  | .error _ => none

end Verif.Wire
