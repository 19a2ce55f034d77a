import Verif.Py.Text

/-!
# Addresses given as text

The checks of ekosis/util/utility_functions.py 28-52 and 66-74, CPython 3.11's `ipaddress.IPv4Address` behind them, and
`make_tcp_udp_host_port` of examples/telemetry/telemetry_example.py 62-70, which uses them.
-/

namespace Verif.Address

open Verif.Py

/-- What Python knows of characters beyond ASCII, left open: which of them `str.isdigit` accepts, which of them the character class
`[A-Z\d-]` matches with `re.IGNORECASE`, and what `int` makes of a text in which they occur. -/
structure Beyond where
  isdigit : Char → Bool
  word : Char → Bool
  int : Str → Except PyErr Nat

/-- `c.isascii()` -/
def isAscii (c : Char) : Bool := c.toNat < 128

/-- `_BaseV4._parse_octet`, CPython's ipaddress.py 1214-1247; every error is a `ValueError`. -/
def parseOctet (s : Str) : Except PyErr Nat :=
  if s = [] then .error .valueError
  else if !(s.all isAscii && s.all Char.isDigit) then .error .valueError
  else if s.length > 3 then .error .valueError
  else if s ≠ ['0'] ∧ s.head? = some '0' then .error .valueError
  else
    let n := Nat.ofDigitChars 10 s 0
    if n > 255 then .error .valueError else .ok n

/-- `is_valid_ipv4_address`, utility_functions.py 27-32, with `IPv4Address.__init__` (ipaddress.py 1286-1311) and
`_ip_int_from_string` (1188-1211). -/
def isIPv4 (s : Str) : Bool :=
  if s.contains '/' then false
  else if s = [] then false
  else
    let octets := Str.split '.' s
    if octets.length ≠ 4 then false
    else octets.all fun o => match parseOctet o with
      | .ok _ => true
      | .error _ => false

/-- The character class `[A-Z\d-]` with `re.IGNORECASE`, utility_functions.py 41. -/
def inClass (u : Beyond) (c : Char) : Bool :=
  if isAscii c then c.isAlpha || c.isDigit || c = '-' else u.word c

/-- A match of `(?!-)[A-Z\d-]{1,63}(?<!-)$` whose character class matches `n` characters, utility_functions.py 41. `$` matches at the
end and before a line feed at the end. -/
def matchOf (u : Beyond) (x : Str) (n : Nat) : Bool :=
  x.head? ≠ some '-' && (x.take n).length = n && (x.take n).all (inClass u) && (x.take n).getLast? ≠ some '-' &&
    (x.drop n = [] || x.drop n = ['\n'])

/-- `allowed.match(x)`, utility_functions.py 41-42: the matcher tries every number of characters. -/
def matchLabel (u : Beyond) (x : Str) : Bool := (List.range 63).any fun i => matchOf u x (i + 1)

/-- `is_possible_valid_ietf_hostname`, utility_functions.py 36-42. -/
def isIetf (u : Beyond) (h : Str) : Except PyErr Bool :=
  if h.length > 255 then .ok false
  else match h.getLast? with
    | none => .error .indexError
    | some c =>
      let h := if c = '.' then h.dropLast else h
      .ok ((Str.split '.' h).all (matchLabel u))

/-- `is_valid_hostname`, utility_functions.py 45-48. -/
def isHostname (u : Beyond) (h : Str) : Except PyErr Bool := if !isIPv4 h then isIetf u h else .ok true

/-- `str.isdigit` of one character. -/
def isDigitChar (u : Beyond) (c : Char) : Bool := if isAscii c then c.isDigit else u.isdigit c

/-- `is_valid_port_number`, utility_functions.py 51-52. -/
def isPort (u : Beyond) (p : Str) : Bool := p ≠ [] && p.all (isDigitChar u)

/-- `int(port)` of a text that passed `isPort`, telemetry_example.py 70: at most 4300 digits (`sys.int_max_str_digits`). -/
def portInt (u : Beyond) (p : Str) : Except PyErr Nat :=
  if p.all isAscii then
    if p.length > 4300 then .error .valueError else .ok (Nat.ofDigitChars 10 p 0)
  else u.int p

/-- How reading an address ends. -/
inductive Outcome where
  /-- host and port -/
  | address (host : Str) (port : Nat)
  /-- `print_error` and the end of the program -/
  | refused
  /-- an exception -/
  | raised (e : PyErr)
  deriving DecidableEq

/-- `make_tcp_udp_host_port`, telemetry_example.py 62-70. -/
def hostPort (u : Beyond) (request : Str) : Outcome :=
  match Str.split ':' request with
  | [host, port] =>
    match isHostname u host with
    | .error e => .raised e
    | .ok false => .refused
    | .ok true =>
      if !isPort u port then .refused
      else match portInt u port with
        | .error e => .raised e
        | .ok n => .address host n
  | _ => .raised .valueError

/-- `get_machine_hostname`, utility_functions.py 68-74, with the answers of `socket.gethostname` and `socket.gethostbyname`. -/
def machineHostname (u : Beyond) (own : Str) (byName : Str → Str) (h : Str) : Except PyErr (Option Str) :=
  if h = "127.0.0.1".toList ∨ h = "localhost".toList then .ok (some own)
  else if isIPv4 h then .ok (some (byName h))
  else match isIetf u h with
    | .error e => .error e
    | .ok true => .ok (some h)
    | .ok false => .ok none

end Verif.Address
