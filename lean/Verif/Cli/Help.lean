import Verif.Py.Text

/-!
# The text of the command-line help

ekosis/cli/argparse_formatter.py.
-/

namespace Verif.Cli.Help

open Verif.Py

/-- `s` cut at every character for which `sp` holds. -/
def cutAt (sp : Char → Bool) : Str → List Str
  | [] => [[]]
  | c :: cs =>
    if sp c then [] :: cutAt sp cs
    else match cutAt sp cs with
      | [] => [[c]]
      | w :: ws => (c :: w) :: ws

/-- `s.split()`: cut at white space, without the empty parts. Which characters are white space is left open (`sp`). -/
def words (sp : Char → Bool) (s : Str) : List Str := (cutAt sp s).filter (· ≠ [])

/-- `' '.join(line)` -/
def spaced : List Str → Str
  | [] => []
  | [w] => w
  | w :: w' :: ws => w ++ ' ' :: spaced (w' :: ws)

/-- The loop over the words, argparse_formatter.py 12-27, from a state of `line` and `line_len`: the lines appended from there on. -/
def wrap (width : Int) : List Str → List Str → Nat → List Str
  | [], line, _ => [spaced line]
  | word :: rest, line, len =>
    let next : Nat := len + word.length + (if line ≠ [] then 1 else 0)
    if (next : Int) > width then spaced line :: wrap width rest [word] word.length
    else wrap width rest (line ++ [word]) (len + (if line ≠ [] then 1 else 0) + word.length)

/-- `_split_lines`, argparse_formatter.py 7-28. -/
def splitLines (sp : Char → Bool) (text : Str) (width : Int) : List Str :=
  (Str.split '\n' text).flatMap fun line => wrap width (words sp line) [] 0

/-- `'\n'.join(..)` -/
def joinLines : List Str → Str
  | [] => []
  | [l] => l
  | l :: l' :: ls => l ++ '\n' :: joinLines (l' :: ls)

/-- `_fill_text`, argparse_formatter.py 30-31. -/
def fillText (sp : Char → Bool) (text : Str) (width : Int) (indent : Str) : Str :=
  joinLines ((splitLines sp text (width - indent.length)).map (indent ++ ·))

end Verif.Cli.Help
