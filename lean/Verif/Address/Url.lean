import Verif.Address.Model

/-!
# The check of URLs

`is_valid_url`, ekosis/util/utility_functions.py 77-82, with CPython 3.11's `urllib.parse.urlparse` behind it (urllib/parse.py 374-411,
413-437, 453-511).
-/

namespace Verif.Address

open Verif.Py

/-- What is left open: which hosts in brackets pass `_check_bracketed_host` (parse.py 441-448), and which texts with characters beyond
ASCII pass `_checknetloc` (421-437). -/
structure UrlBeyond where
  bracketed : Str → Bool
  normal : Str → Bool

/-- `_WHATWG_C0_CONTROL_OR_SPACE`, parse.py 89. -/
def isControlOrSpace (c : Char) : Bool := c.toNat ≤ 32

/-- `_UNSAFE_URL_BYTES_TO_REMOVE`, parse.py 92. -/
def isUnsafe (c : Char) : Bool := c = '\t' || c = '\r' || c = '\n'

/-- parse.py 477-482 -/
def cleanUrl (s : Str) : Str := (s.dropWhile isControlOrSpace).filter fun c => !isUnsafe c

/-- `scheme_chars`, parse.py 82-85. -/
def isSchemeChar (c : Char) : Bool := isAscii c && (c.isAlpha || c.isDigit || c = '+' || c = '-' || c = '.')

/-- The scheme and what is behind it, parse.py 486-492; without a scheme the whole text. -/
def splitScheme (s : Str) : Str × Str :=
  let before := s.takeWhile (· ≠ ':')
  if s.contains ':' && before ≠ [] then
    match s with
    | [] => ([], s)
    | c :: _ =>
      if isAscii c && c.isAlpha then
        if before.all isSchemeChar then (Str.lower before, s.drop (before.length + 1)) else ([], s)
      else ([], s)
  else ([], s)

/-- `_splitnetloc(url, 2)[0]`, parse.py 413-419. -/
def netlocOf (s : Str) : Str := (s.drop 2).takeWhile fun c => !(c = '/' || c = '?' || c = '#')

/-- `netloc.partition('[')[2].partition(']')[0]`, parse.py 499. -/
def bracketedHost (netloc : Str) : Str := ((netloc.dropWhile (· ≠ '[')).drop 1).takeWhile (· ≠ ']')

/-- `urlparse`: scheme and netloc, parse.py 453-511; what becomes of the rest does not matter and raises nothing. -/
def urlparse (u : UrlBeyond) (url : Str) : Except PyErr (Str × Str) :=
  let url := cleanUrl url
  let (scheme, url) := splitScheme url
  if url.take 2 = "//".toList then
    let netloc := netlocOf url
    if (netloc.contains '[' && !netloc.contains ']') || (netloc.contains ']' && !netloc.contains '[') then .error .valueError
    else if netloc.contains '[' && netloc.contains ']' && !u.bracketed (bracketedHost netloc) then .error .valueError
    else if !(netloc = [] || netloc.all isAscii) && !u.normal netloc then .error .valueError
    else .ok (scheme, netloc)
  else .ok (scheme, [])

/-- `is_valid_url`, utility_functions.py 77-82: `all` of two texts is whether both have characters. -/
def isUrl (u : UrlBeyond) (url : Str) : Bool :=
  match urlparse u url with
  | .ok (scheme, netloc) => scheme ≠ [] && netloc ≠ []
  | .error _ => false

end Verif.Address
