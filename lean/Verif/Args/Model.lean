import Verif.Py.Basic
import Verif.Py.Text

/-!
# Command lines

How the command line of an application (ekosis/configuration/argument_parser.py) and of the tools (ekosis/cli/{bem,bsm,stat,log}.py with
shared_argument_parser.py and shared_queue_argument_parser.py; examples/telemetry/argument_parser.py) is taken apart. All of them use
`argparse.ArgumentParser.parse_args` with options only, no positional arguments, options that take one value or none, and at most one mutually
exclusive group; so much of argparse.py of Python 3.11.10 ("ap") is modelled. Not modelled: the texts that are printed.
-/

namespace Verif.Args

open Verif.Py

/-- What Python makes of characters beyond ASCII is left open: the digits `\d` of regular expressions, and `int`. -/
structure Beyond where
  isDigit : Char → Bool
  int : Str → Option Int

/-- A value in the `Namespace`. -/
inductive Value where
  | none
  | text (s : Str)
  | int (i : Int)
  | flag (b : Bool)
  deriving DecidableEq, Repr

/-- `type = str`, `type = int`, `action = "store_true"`, and the option `-h` every parser has. -/
inductive Kind where
  | text
  | int
  | flag
  | help
  deriving DecidableEq, Repr

/-- What `add_argument` is given. -/
structure Opt where
  strings : List Str
  dest : String
  kind : Kind
  required : Bool := false
  choices : Option (List Str) := none
  default : Value := .none
  /-- in the mutually exclusive group -/
  exclusive : Bool := false
  deriving DecidableEq

/-- The options, in the order they were added. -/
abbrev Parser := List Opt

/-- `nargs` is `None`, not 0. -/
def Opt.takesValue (o : Opt) : Bool :=
  match o.kind with
  | .text => true
  | .int => true
  | .flag => false
  | .help => false

/-- `_option_string_actions.get(s)`, ap 1493-1495 -/
def find (p : Parser) (s : Str) : Option Opt := p.find? fun o => s ∈ o.strings

/-- The items of `_option_string_actions`. -/
def names (p : Parser) : List (Str × Opt) := p.flatMap fun o => o.strings.map fun n => (n, o)

/-- How an argument is understood as an option: the option, its name, and the explicit argument with whether a "=" comes before it. -/
structure Tuple where
  opt : Opt
  name : Str
  explicit : Option (Bool × Str)
  deriving DecidableEq

/-- `s.partition('=')` -/
def partition (s : Str) : Str × Option Str :=
  (s.takeWhile (· ≠ '='), match s.dropWhile (· ≠ '=') with
    | [] => none
    | _ :: v => some v)

/-- One option name in the first loop of `_get_option_tuples`, ap 2307-2315. -/
def tupleLong (s : Str) (x : Str × Opt) : Option Tuple :=
  if (partition s).1.isPrefixOf x.1 then some ⟨x.2, x.1, (partition s).2.map fun v => (true, v)⟩ else none

/-- One option name in the second loop, ap 2320-2333. -/
def tupleShort (s : Str) (x : Str × Opt) : Option Tuple :=
  if x.1 = s.take 2 then some ⟨x.2, x.1, some (false, s.drop 2)⟩
  else if s.isPrefixOf x.1 then some ⟨x.2, x.1, none⟩
  else none

/-- Whether an argument begins with two dashes. -/
def isLong : Str → Bool
  | '-' :: '-' :: _ => true
  | _ => false

/-- `_get_option_tuples`, ap 2300-2340; the argument begins with a dash and has two characters at least. -/
def optionTuples (p : Parser) (s : Str) : List Tuple :=
  if isLong s then (names p).filterMap (tupleLong s) else (names p).filterMap (tupleShort s)

def isDigit (u : Beyond) (c : Char) : Bool := if c.toNat < 128 then c.isDigit else u.isDigit c

/-- `_negative_number_matcher.match(s)`: `^-\d+$|^-\d*\.\d+$`, ap 1386; `$` matches before a newline at the end too. -/
def negativeNumber (u : Beyond) (s : Str) : Bool :=
  let t := match s.getLast? with
    | some '\n' => s.dropLast
    | _ => s
  match t with
  | '-' :: b =>
    (b ≠ [] && b.all (isDigit u)) ||
    (match b.dropWhile (isDigit u) with
      | '.' :: r => r ≠ [] && r.all (isDigit u)
      | _ => false)
  | _ => false

/-- The outcome of `_parse_optional`. -/
inductive Class where
  /-- `None` -/
  | argument
  /-- a tuple, without an option if there is none of that name -/
  | option (t : Option Tuple)
  /-- `error` was called: exit status 2 -/
  | ambiguous
  deriving DecidableEq

/-- The last part of `_parse_optional`, ap 2267-2298, when the argument is no option name, with or without "=" and a value behind it. No option
of the parsers modelled looks like a negative number. -/
def classifyOther (u : Beyond) (p : Parser) (s : Str) : Class :=
  match optionTuples p s with
  | [t] => .option (some t)
  | _ :: _ :: _ => .ambiguous
  | [] => if negativeNumber u s then .argument else if ' ' ∈ s then .argument else .option none

/-- `_parse_optional`, ap 2243-2298. -/
def classify (u : Beyond) (p : Parser) (s : Str) : Class :=
  if s.head? ≠ some '-' then .argument
  else match find p s with
    | some o => .option (some ⟨o, s, none⟩)
    | none =>
      if s.length = 1 then .argument
      else match (partition s).2, find p (partition s).1 with
        | some v, some o => .option (some ⟨o, (partition s).1, some (true, v)⟩)
        | _, _ => classifyOther u p s

/-- An argument with its letter in `arg_strings_pattern`: A, -, O. -/
inductive Token where
  | argument (s : Str)
  | separator
  | option (s : Str) (t : Option Tuple)
  deriving DecidableEq

/-- ap 1933-1959; `none`: exit status 2. -/
def tokens (u : Beyond) (p : Parser) : List Str → Option (List Token)
  | [] => some []
  | a :: as =>
    if a = "--".toList then some (.separator :: as.map .argument)
    else match classify u p a with
      | .ambiguous => none
      | .argument => (tokens u p as).map (.argument a :: ·)
      | .option t => (tokens u p as).map (.option a t :: ·)

/-- The `Namespace`, the destinations of `seen_actions`, and `extras`. -/
structure St where
  values : Dict String Value
  seen : List String
  extras : List Str

/-- What `consume_optional` found, ap 1986-2069: the options to perform with their values, what it adds to `extras`, and whether the argument that
follows is used. -/
structure Found where
  acts : List (Opt × List Str)
  extras : List Str
  used : Bool

/-- No explicit argument, ap 2055-2061: an option that takes a value takes the argument that follows, if that is one. -/
def plain (o : Opt) (next : Option Str) : Except Nat Found :=
  if o.takesValue then
    match next with
    | some v => .ok ⟨[(o, [v])], [], true⟩
    | none => .error 2
  else .ok ⟨[(o, [])], [], false⟩

def Found.before (o : Opt) (f : Found) : Found := { f with acts := (o, []) :: f.acts }

/-- An explicit argument, ap 2005-2050, and the loop around it. `short`: the name of the option has one dash; `eq`: `sep` is "=". -/
def explicit (p : Parser) (next : Option Str) (o : Opt) (short eq : Bool) (e : Str) : Except Nat Found :=
  if o.takesValue then .ok ⟨[(o, [e])], [], false⟩
  else if short = false then .error 2
  else match e with
    | [] => .error 2
    | c :: cs =>
      if eq = true ∨ c = '-' then .error 2
      else match find p ['-', c] with
        | none => .ok ⟨[(o, [])], ['-' :: c :: cs], false⟩
        | some o' => match cs with
          | [] => (plain o' next).map (Found.before o)
          | d :: ds =>
            if d = '=' then (explicit p next o' true true ds).map (Found.before o)
            else (explicit p next o' true false (d :: ds)).map (Found.before o)

/-- `consume_optional` up to the actions, ap 1986-2061. -/
def consume (p : Parser) (t : Tuple) (next : Option Str) : Except Nat Found :=
  match t.explicit with
  | none => plain t.opt next
  | some (eq, e) => explicit p next t.opt (t.name[1]? ≠ some '-') eq e

/-- `_get_value` and `_check_value`, ap 2531-2563, for one value. -/
def convert (u : Beyond) (o : Opt) (v : Str) : Option Value :=
  match o.kind with
  | .int => (u.int v).map .int
  | _ => match o.choices with
    | none => some (.text v)
    | some cs => if v ∈ cs then some (.text v) else none

/-- Another option of the group was seen, ap 1974-1978. -/
def conflicts (p : Parser) (s : St) (o : Opt) : Bool :=
  o.exclusive && p.any fun o' => o'.exclusive && o'.dest != o.dest && s.seen.contains o'.dest

/-- `take_action`, ap 1965-1983, with the action itself: `_StoreAction`, `_StoreTrueAction`, `_HelpAction` (exit status 0). -/
def takeAction (u : Beyond) (p : Parser) (s : St) : Opt × List Str → Except Nat St
  | (o, args) =>
    match o.kind, args with
    | .help, _ => .error 0
    | .flag, _ =>
      if conflicts p s o then .error 2
      else .ok { s with seen := s.seen ++ [o.dest], values := s.values.set o.dest (.flag true) }
    | _, v :: _ => match convert u o v with
      | none => .error 2
      | some x =>
        if conflicts p s o then .error 2
        else .ok { s with seen := s.seen ++ [o.dest], values := s.values.set o.dest x }
    | _, [] => .error 2

/-- ap 2066-2069 -/
def takeActions (u : Beyond) (p : Parser) : St → List (Opt × List Str) → Except Nat St
  | s, [] => .ok s
  | s, a :: as => match takeAction u p s a with
    | .error n => .error n
    | .ok s' => takeActions u p s' as

/-- The argument that follows, if it is one. -/
def following : List Token → Option Str
  | .argument v :: _ => some v
  | _ => none

def St.extra (s : St) (a : Str) : St := { s with extras := s.extras ++ [a] }

/-- The loop of `_parse_known_args`, ap 2094-2134, one argument after the other; `skip`: the next argument was used as a value. Without
positional arguments `consume_positionals` consumes nothing, so that what is no option and no value goes to `extras`. -/
def loop (u : Beyond) (p : Parser) : Bool → St → List Token → Except Nat St
  | _, s, [] => .ok s
  | true, s, _ :: ts => loop u p false s ts
  | false, s, .argument a :: ts => loop u p false (s.extra a) ts
  | false, s, .separator :: ts => loop u p false (s.extra "--".toList) ts
  | false, s, .option a none :: ts => loop u p false (s.extra a) ts
  | false, s, .option _ (some t) :: ts => match consume p t (following ts) with
    | .error n => .error n
    | .ok f => match takeActions u p s f.acts with
      | .error n => .error n
      | .ok s' => loop u p f.used { s' with extras := s'.extras ++ f.extras } ts

/-- The namespace before parsing, ap 1892-1897; the option `-h` has no destination. -/
def defaults (p : Parser) : Dict String Value := (p.filter fun o => o.kind != .help).map fun o => (o.dest, o.default)

/-- `parse_args`, ap 1873-1878 and 1880-1916: the namespace, or the exit status. Required options, ap 2136-2157, come before arguments that are
not recognised. -/
def parse (u : Beyond) (p : Parser) (argv : List Str) : Except Nat (Dict String Value) :=
  match tokens u p argv with
  | none => .error 2
  | some ts => match loop u p false ⟨defaults p, [], []⟩ ts with
    | .error n => .error n
    | .ok s =>
      if p.any fun o => o.required && !s.seen.contains o.dest then .error 2
      else if s.extras ≠ [] then .error 2
      else .ok s.values

/-! ### The parsers -/

def option (short long : String) (kind : Kind) : Opt :=
  { strings := [("-" ++ short).toList, ("--" ++ long).toList], dest := long, kind := kind }

/-- `action = "store_true"` in the mutually exclusive group. -/
def action (short long : String) : Opt :=
  { strings := [("-" ++ short).toList, ("--" ++ long).toList], dest := long, kind := .flag, default := .flag false, exclusive := true }

/-- Added by `ArgumentParser.__init__`, ap 1786-1793. -/
def help : Opt := option "h" "help" .help

/-- ekosis/configuration/argument_parser.py 3-34 -/
def application : Parser :=
  [help, { option "i" "instance" .text with required := true }, option "c" "config_file" .text, action "lco" "log_console_only", action "lfo" "log_file_only"]

/-- ekosis/cli/shared_argument_parser.py 5-26 -/
def shared : Parser :=
  [help, { option "st" "server_type" .text with required := true, choices := some ["tcp".toList, "udp".toList, "uds".toList] },
    { option "sd" "server_details" .text with required := true }]

/-- `setup_shared_options`, ekosis/cli/shared_queue_argument_parser.py 15-32 -/
def queueShared : Parser :=
  [action "e10" "error_10", action "rp1" "reprocess_one", action "rpa" "reprocess_all", action "ins" "inspect_request", action "pop" "pop_request",
    action "clr" "clear", option "sk" "span_key" .text]

/-- bem.py: shared_queue_argument_parser.py 3-10 and 35-42 -/
def bem : Parser :=
  shared ++ [{ option "rk" "route_key" .text with required := true }] ++
  [action "pr" "pause_receiving", action "pp" "pause_processing", action "ur" "unpause_receiving", action "up" "unpause_processing",
    action "pa" "pause_all", action "ua" "unpause_all"] ++ queueShared

/-- bsm.py: shared_queue_argument_parser.py 3-10 and 45-48 -/
def bsm : Parser :=
  shared ++ [{ option "rk" "route_key" .text with required := true }] ++ [action "ps" "pause_sending", action "us" "unpause_sending"] ++ queueShared

/-- ekosis/cli/stat.py 9-20 -/
def stat : Parser :=
  shared ++ [{ option "type" "type" .text with choices := some ["current".toList, "gathered".toList, "full".toList], default := .text "current".toList }]

/-- ekosis/cli/log.py 9-28 -/
def log : Parser :=
  shared ++ [{ option "l" "level" .text with choices := some ["debug".toList, "info".toList, "warn".toList, "error".toList, "critical".toList] },
    option "b" "buff_size" .int]

/-- examples/telemetry/argument_parser.py 34-90 -/
def telemetry : Parser :=
  shared ++ [{ option "ifu" "influx_url" .text with required := true }, { option "ifo" "influx_org" .text with required := true },
    { option "ifb" "influx_bucket" .text with required := true }, { option "ift" "influx_token" .text with required := true }]

end Verif.Args
