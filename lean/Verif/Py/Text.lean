import Verif.Py.Basic

/-! # Python text: the handful of `str` operations used by the configuration code, on lists of characters -/

namespace Verif.Py

/-- A Python `str`, as the list of its code points. -/
abbrev Str := List Char

namespace Str

/-- `s.upper()`. Simplification: ASCII letters only (other letters are left alone). -/
def upper (s : Str) : Str := s.map Char.toUpper

/-- `s.lower()`. Simplification: ASCII letters only. -/
def lower (s : Str) : Str := s.map Char.toLower

/-- `s.split(c)` for a one character separator: never empty. -/
def split (c : Char) : Str → List Str
  | [] => [[]]
  | x :: xs =>
    if x = c then [] :: split c xs
    else match split c xs with
      | [] => [[x]]
      | w :: ws => (x :: w) :: ws

/-- `s.replace(p, "", 1)`: removes the leftmost occurrence of `p`. -/
def replaceFirst (p : Str) : Str → Str
  | [] => []
  | x :: xs => if p.isPrefixOf (x :: xs) then (x :: xs).drop p.length else x :: replaceFirst p xs

/-- The part of `s` after the last `c` (all of it if there is none): `s[s.rfind(c)+1:]`. -/
def afterLast (c : Char) (s : Str) : Str := (s.reverse.takeWhile (· ≠ c)).reverse

/-- The part of `s` up to and including the last `c`: `s[:s.rfind(c)+1]`. -/
def uptoLast (c : Char) (s : Str) : Str := (s.reverse.dropWhile (· ≠ c)).reverse

/-- C's `isspace`, which `int()` skips (Objects/longobject.c). Simplification: ASCII white space only. -/
def isSpace (c : Char) : Bool :=
  c = ' ' || c = '\t' || c = '\n' || c = '\r' || c = '\x0b' || c = '\x0c'

/-- White space around a number as skipped by `int()`. -/
def trim (s : Str) : Str := ((s.dropWhile isSpace).reverse.dropWhile isSpace).reverse

/-- `c.isspace()`, the characters removed by `str.strip()` (Objects/unicodetype_db.h, `_PyUnicode_IsWhitespace`). -/
def isWhite (c : Char) : Bool :=
  let n := c.toNat
  (9 ≤ n && n ≤ 13) || (28 ≤ n && n ≤ 32) || n = 0x85 || n = 0xa0 || n = 0x1680 || (0x2000 ≤ n && n ≤ 0x200a) || n = 0x2028 || n = 0x2029 ||
    n = 0x202f || n = 0x205f || n = 0x3000

/-- `s.strip()` -/
def strip (s : Str) : Str := ((s.dropWhile isWhite).reverse.dropWhile isWhite).reverse

/-- Decimal digits with single underscores between digits, as accepted by `int()`. -/
def natOf (s : Str) : Option Nat :=
  let groups := split '_' s
  if groups.all (fun g => g ≠ [] && g.all Char.isDigit) then some (Nat.ofDigitChars 10 groups.flatten 0) else none

/-- `int(s)`: white space around is ignored, one sign is allowed, anything else raises `ValueError`.
Simplification: ASCII digits only, and no limit on the number of digits. -/
def toInt (s : Str) : Except PyErr Int :=
  let r := match trim s with
    | '-' :: t => (natOf t).map fun n : Nat => -(n : Int)
    | '+' :: t => (natOf t).map fun n : Nat => (n : Int)
    | t => (natOf t).map fun n : Nat => (n : Int)
  match r with
  | none => .error .valueError
  | some i => .ok i

/-- `str(n)` for a natural number. -/
def ofNat (n : Nat) : Str := Nat.toDigits 10 n

theorem split_free {c : Char} {s : Str} (h : c ∉ s) : split c s = [s] := by
  induction s with
  | nil => rfl
  | cons x xs ih => simp at h; simp [split, ih h.2, Ne.symm h.1]

theorem split_append {c : Char} {s t : Str} (h : c ∉ s) : split c (s ++ c :: t) = s :: split c t := by
  induction s with
  | nil => simp [split]
  | cons x xs ih => simp at h; simp [split, ih h.2, Ne.symm h.1]

theorem replaceFirst_prefix (p t : Str) (h : p ≠ []) : replaceFirst p (p ++ t) = t := by
  cases p with
  | nil => exact absurd rfl h
  | cons x xs =>
    have : (x :: xs).isPrefixOf ((x :: xs) ++ t) = true := by rw [List.isPrefixOf_iff_prefix]; exact List.prefix_append _ _
    simp only [List.cons_append] at this ⊢
    rw [replaceFirst, if_pos this]
    simp

theorem dropWhile_head {p : Char → Bool} {x : Char} {xs : Str} (h : p x = false) : (x :: xs).dropWhile p = x :: xs := by
  simp [List.dropWhile, h]

theorem not_isSpace_of_isDigit {c : Char} (h : c.isDigit = true) : isSpace c = false := by
  refine Bool.eq_false_iff.2 fun hc => ?_
  simp only [isSpace, Bool.or_eq_true, decide_eq_true_eq] at hc
  rcases hc with ((((hc | hc) | hc) | hc) | hc) | hc <;> subst hc <;> revert h <;> decide

/-- Digits with white space on the right only. -/
theorem trim_digits {s t : Str} (hne : s ≠ []) (hd : ∀ c ∈ s, c.isDigit = true) (ht : ∀ c ∈ t, isSpace c = true) :
    trim (s ++ t) = s := by
  have h1 : (s ++ t).dropWhile isSpace = s ++ t := by
    cases s with
    | nil => exact absurd rfl hne
    | cons x xs => exact dropWhile_head (not_isSpace_of_isDigit (hd x (by simp)))
  have h2 : (t.reverse ++ s.reverse).dropWhile isSpace = s.reverse := by
    have : t.reverse.dropWhile isSpace = [] := by
      have ht' : ∀ c ∈ t.reverse, isSpace c = true := by simpa using ht
      generalize t.reverse = u at ht'
      induction u with
      | nil => rfl
      | cons x xs ih => simp at ht'; simp [List.dropWhile, ht'.1]; simpa using ih (by simpa using ht'.2)
    rw [List.dropWhile_append, this]
    simp only [List.isEmpty_nil, if_true]
    cases hr : s.reverse with
    | nil => rfl
    | cons x xs => exact dropWhile_head (not_isSpace_of_isDigit (hd x (by have : x ∈ s.reverse := by simp [hr]
                                                                          simpa using this)))
  rw [trim, h1, List.reverse_append, h2, List.reverse_reverse]

theorem digit_ofNat (n : Nat) : ∀ c ∈ ofNat n, c.isDigit = true :=
  fun _ h => Nat.isDigit_of_mem_toDigits (by decide) (by decide) h

/-- Reading back a number that was written, possibly followed by white space such as a line feed. -/
theorem toInt_ofNat (n : Nat) {t : Str} (ht : ∀ c ∈ t, isSpace c = true) : toInt (ofNat n ++ t) = .ok n := by
  have hne : ofNat n ≠ [] := Nat.toDigits_ne_nil
  have hd := digit_ofNat n
  have hu : '_' ∉ ofNat n := Nat.underscore_not_in_toDigits
  have hn : natOf (ofNat n) = some n := by
    have hall : (ofNat n).all Char.isDigit = true := by simpa using hd
    simp [natOf, split_free hu, hne, hall]
    exact Nat.ofDigitChars_ten_toDigits
  have hs := trim_digits hne hd ht
  unfold toInt
  rw [hs]
  have hm : ofNat n ≠ [] → (match ofNat n with
      | '-' :: t => (natOf t).map fun n : Nat => -(n : Int)
      | '+' :: t => (natOf t).map fun n : Nat => (n : Int)
      | t => (natOf t).map fun n : Nat => (n : Int)) = (natOf (ofNat n)).map fun n : Nat => (n : Int) := by
    intro _
    split
    · next heq => have := hd '-' (by simp [heq]); exact absurd this (by decide)
    · next heq => have := hd '+' (by simp [heq]); exact absurd this (by decide)
    · rfl
  simp only [hm hne, hn, Option.map_some]

end Str

end Verif.Py
