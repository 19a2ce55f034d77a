import Verif.Wire.Props
import Mathlib.Data.List.Dedup

/-!
# Vocabulary of C101: JSON texts, RFC 8259

What a text of a value is, without regard to how any program writes or reads it.
-/

namespace Verif.Grammar.Spec

open Verif.Py Verif.Wire Verif.Wire.Spec Verif.Span

/-- `c` is the hexadecimal digit for `n`, in either case. -/
def Hex (c : Char) (n : Nat) : Prop := "0123456789abcdef".toList[n]? = some c ∨ "0123456789ABCDEF".toList[n]? = some c

/-- The code unit `u` as an escape. -/
def Unit (t : Str) (u : Nat) : Prop := ∃ a b c d x y z w, t = ['\\', 'u', a, b, c, d] ∧ Hex a x ∧ Hex b y ∧ Hex c z ∧ Hex d w ∧
  u = x * 4096 + y * 256 + z * 16 + w

/-- A spelling of one character within a JSON string. -/
inductive Spelled : Char → Str → Prop
  /-- as it is -/
  | raw {c : Char} (h : c ≠ '"') (h' : c ≠ '\\') (h'' : 32 ≤ c.toNat) : Spelled c [c]
  | quote : Spelled '"' ['\\', '"']
  | backslash : Spelled '\\' ['\\', '\\']
  | slash : Spelled '/' ['\\', '/']
  | backspace : Spelled '\x08' ['\\', 'b']
  | formFeed : Spelled '\x0c' ['\\', 'f']
  | lineFeed : Spelled '\n' ['\\', 'n']
  | carriageReturn : Spelled '\r' ['\\', 'r']
  | tab : Spelled '\t' ['\\', 't']
  /-- by its number -/
  | unit {c : Char} {t : Str} (h : Unit t c.toNat) : Spelled c t
  /-- by a pair of surrogates -/
  | pair {c : Char} {t t' : Str} {u v : Nat} (h : Unit t u) (h' : Unit t' v) (hu : 0xd800 ≤ u ∧ u < 0xdc00) (hv : 0xdc00 ≤ v ∧ v < 0xe000)
      (hc : c.toNat = 0x10000 + (u - 0xd800) * 0x400 + (v - 0xdc00)) : Spelled c (t ++ t')

/-- A spelling of a text. -/
inductive Spelling : Str → Str → Prop
  | nil : Spelling [] []
  | cons {c : Char} {s t u : Str} (h : Spelled c t) (h' : Spelling s u) : Spelling (c :: s) (t ++ u)

/-- Names in the order in which they first occur, each with its last value. -/
def lastWins (fs : List (String × Json)) : List (String × Json) :=
  (fs.map Prod.fst).reverse.dedup.reverse.map fun k => (k, (fs.reverse.lookup k).getD .null)

mutual

/-- `t` is a text of the value. Whole numbers have at most 4300 digits; no name occurs twice in an object. With `lax`, also what Python's reader
takes beyond RFC 8259: three constants, and repeated names. -/
inductive Text (lax : Bool) (F : Floats) : Json → Str → Prop
  | null : Text lax F .null ['n', 'u', 'l', 'l']
  | true : Text lax F (.bool true) ['t', 'r', 'u', 'e']
  | false : Text lax F (.bool false) ['f', 'a', 'l', 's', 'e']
  | int (n : Nat) (h : (Nat.toDigits 10 n).length ≤ 4300) : Text lax F (.int n) (Nat.toDigits 10 n)
  | minus (n : Nat) (h : (Nat.toDigits 10 n).length ≤ 4300) : Text lax F (.int (-n)) ('-' :: Nat.toDigits 10 n)
  | float {t : Str} (h : FloatText t) : Text lax F (.float (F.parse t)) t
  | str {s : String} {u : Str} (h : Spelling s.toList u) : Text lax F (.str s) ('"' :: (u ++ ['"']))
  | empty {b : Str} (h : Blank b) : Text lax F (.arr []) ('[' :: (b ++ [']']))
  | arr {b u : Str} {vs : List Json} (h : Blank b) (h' : Items lax F vs u) : Text lax F (.arr vs) ('[' :: (b ++ (u ++ [']'])))
  | noFields {b : Str} (h : Blank b) : Text lax F (.obj []) ('{' :: (b ++ ['}']))
  | obj {b u : Str} {fs : List (String × Json)} (h : Blank b) (h' : Fields lax F fs u) (hn : (fs.map Prod.fst).Nodup) :
      Text lax F (.obj fs) ('{' :: (b ++ ('"' :: (u ++ ['}']))))
  | nan (h : lax = .true) : Text lax F (.float "nan") ['N', 'a', 'N']
  | infinity (h : lax = .true) : Text lax F (.float "inf") ['I', 'n', 'f', 'i', 'n', 'i', 't', 'y']
  | minusInfinity (h : lax = .true) : Text lax F (.float "-inf") ['-', 'I', 'n', 'f', 'i', 'n', 'i', 't', 'y']
  | repeated {b u : Str} {fs : List (String × Json)} (hl : lax = .true) (h : Blank b) (h' : Fields lax F fs u) :
      Text lax F (.obj (lastWins fs)) ('{' :: (b ++ ('"' :: (u ++ ['}']))))

/-- The values of a list, separated by commas, with the blanks after each. -/
inductive Items (lax : Bool) (F : Floats) : List Json → Str → Prop
  | one {v : Json} {t b : Str} (h : Text lax F v t) (hb : Blank b) : Items lax F [v] (t ++ b)
  | more {v : Json} {vs : List Json} {t b b' u : Str} (h : Text lax F v t) (hb : Blank b) (hb' : Blank b') (h' : Items lax F vs u) :
      Items lax F (v :: vs) (t ++ (b ++ ',' :: (b' ++ u)))

/-- The members of an object, separated by commas, from after the first quote, with the blanks after each. -/
inductive Fields (lax : Bool) (F : Floats) : List (String × Json) → Str → Prop
  | one {k : String} {v : Json} {s t b b' b'' : Str} (hs : Spelling k.toList s) (hb : Blank b) (hb' : Blank b') (h : Text lax F v t) (hb'' : Blank b'') :
      Fields lax F [(k, v)] (s ++ '"' :: (b ++ ':' :: (b' ++ (t ++ b''))))
  | more {k : String} {v : Json} {fs : List (String × Json)} {s t b b' b'' b3 u : Str} (hs : Spelling k.toList s) (hb : Blank b) (hb' : Blank b')
      (h : Text lax F v t) (hb'' : Blank b'') (hb3 : Blank b3) (h' : Fields lax F fs u) :
      Fields lax F ((k, v) :: fs) (s ++ '"' :: (b ++ ':' :: (b' ++ (t ++ (b'' ++ ',' :: (b3 ++ '"' :: u))))))

end

/-- `ds` are hexadecimal digits, most significant first, of the number `n`. -/
def Digits (ds : Str) (n : Nat) : Prop := ∃ xs : List Nat, List.Forall₂ Hex ds xs ∧ n = xs.foldl (fun a x => a * 16 + x) 0

/-- The text of a UUID, RFC 9562: 32 hexadecimal digits in five groups. -/
def TraceText (t : Str) (n : Nat) : Prop := ∃ a b c d e : Str, t = a ++ '-' :: (b ++ '-' :: (c ++ '-' :: (d ++ '-' :: e))) ∧
  a.length = 8 ∧ b.length = 4 ∧ c.length = 4 ∧ d.length = 4 ∧ e.length = 12 ∧ Digits (a ++ b ++ c ++ d ++ e) n

/-- A span key as a member of a message: the trace identifier as a text, the span identifier as sixteen digits or as a number; in any order, with whatever else. -/
def KeyIn (j : Json) (k : SpanKey) : Prop := ∃ fs, j = .obj fs ∧
  (∃ t, Dict.get? fs "trace_id" = some (.str t) ∧ TraceText t.toList k.trace) ∧
  ((∃ s n, Dict.get? fs "span_id" = some (.str s) ∧ s.toList.length = 16 ∧ Digits s.toList n ∧ k.span.value = n) ∨
   (Dict.get? fs "span_id" = some (.int k.span.value) ∧ 0 ≤ k.span.value ∧ k.span.value < 2 ^ 64))

end Verif.Grammar.Spec
