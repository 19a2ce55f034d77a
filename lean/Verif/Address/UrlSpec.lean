import Verif.Address.Spec

/-! What a URL is. -/

namespace Verif.Address.Spec

open Verif.Py

/-- An ASCII letter. -/
def Letter (c : Char) : Prop := ('a' ≤ c ∧ c ≤ 'z') ∨ ('A' ≤ c ∧ c ≤ 'Z')

/-- The scheme of a URL (RFC 3986): a letter, then letters, digits, plus signs, hyphens and dots. -/
def Scheme (s : Str) : Prop :=
  ∃ c cs, s = c :: cs ∧ Letter c ∧ ∀ x ∈ cs, Letter x ∨ ('0' ≤ x ∧ x ≤ '9') ∨ x = '+' ∨ x = '-' ∨ x = '.'

/-- The characters that end the authority of a URL (RFC 3986). -/
def Ends (c : Char) : Prop := c = '/' ∨ c = '?' ∨ c = '#'

/-- A scheme, "://", an authority that is not empty and, possibly, more. -/
def Url (s : Str) : Prop :=
  ∃ scheme authority rest, s = scheme ++ "://".toList ++ authority ++ rest ∧ Scheme scheme ∧ authority ≠ [] ∧ (∀ c ∈ authority, ¬ Ends c) ∧
    (rest = [] ∨ ∃ c cs, rest = c :: cs ∧ Ends c)

/-- Only visible ASCII characters, and no brackets. -/
def Simple (s : Str) : Prop := ∀ c ∈ s, 32 < c.toNat ∧ c.toNat < 128 ∧ c ≠ '[' ∧ c ≠ ']'

end Verif.Address.Spec
