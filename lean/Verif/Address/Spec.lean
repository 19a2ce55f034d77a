import Verif.Py.Text

/-! What an address is. -/

namespace Verif.Address.Spec

open Verif.Py

/-- A number, written in decimal. -/
def decimal (n : Nat) : Str := Nat.toDigits 10 n

/-- Four numbers up to 255 with dots between them. -/
def IPv4 (s : Str) : Prop :=
  ∃ a b c d : Nat, a ≤ 255 ∧ b ≤ 255 ∧ c ≤ 255 ∧ d ≤ 255 ∧
    s = decimal a ++ '.' :: (decimal b ++ '.' :: (decimal c ++ '.' :: decimal d))

/-- An ASCII letter, digit or hyphen. -/
def LDH (c : Char) : Prop := ('a' ≤ c ∧ c ≤ 'z') ∨ ('A' ≤ c ∧ c ≤ 'Z') ∨ ('0' ≤ c ∧ c ≤ '9') ∨ c = '-'

/-- 1 to 63 allowed characters, no hyphen at either end. -/
def LabelOf (allowed : Char → Prop) (w : Str) : Prop :=
  1 ≤ w.length ∧ w.length ≤ 63 ∧ (∀ c ∈ w, allowed c) ∧ w.head? ≠ some '-' ∧ w.getLast? ≠ some '-'

/-- A label of a host name (RFC 952, RFC 1123): 1 to 63 letters, digits and hyphens, no hyphen at either end. -/
def Label (w : Str) : Prop := LabelOf LDH w

/-- Labels with dots between them. -/
def dots : List Str → Str
  | [] => []
  | [w] => w
  | w :: w' :: ws => w ++ '.' :: dots (w' :: ws)

/-- A host name: labels with dots between them, perhaps one dot at the end, at most 255 characters. -/
def Hostname (h : Str) : Prop :=
  h.length ≤ 255 ∧ ∃ ws : List Str, ws ≠ [] ∧ (∀ w ∈ ws, Label w) ∧ (h = dots ws ∨ h = dots ws ++ ['.'])

/-- The number that digits stand for. -/
def value (p : Str) : Nat := p.foldl (fun n c => 10 * n + (c.toNat - 48)) 0

/-- Every character is an ASCII character and no line feed. -/
def Ordinary (s : Str) : Prop := ∀ c ∈ s, c.toNat < 128 ∧ c ≠ '\n'

end Verif.Address.Spec
