import Verif.Args.Tools

/-! Specification vocabulary for C103: what is written in a command line, and what it means. -/

namespace Verif.Args.Spec

open Verif.Py

/-- The names of the options. -/
def optionNames (p : Parser) : List Str := p.flatMap fun o => o.strings

/-- Parsers as they are in the code: names begin with a dash and have two characters at least, have no "=", no name looks like a number, no two
options share a name or a destination, and options without a value have no one-letter names (but for `-h`). -/
def Sensible (p : Parser) : Prop :=
  (∀ o ∈ p, ∀ n ∈ o.strings, n.head? = some '-' ∧ 2 ≤ n.length ∧ n ≠ ['-', '-'] ∧ '=' ∉ n ∧
    (∀ c, n[1]? = some c → c.toNat < 128 ∧ c.isDigit = false ∧ c ≠ '.')) ∧
  (optionNames p).Nodup ∧ (p.map fun o => o.dest).Nodup ∧
  (∀ o ∈ p, o.kind = .flag → ∀ n ∈ o.strings, n.length ≠ 2)

/-- `a` is one of the names of option `o`, or short for one of them and for no other name. -/
def Short (p : Parser) (a : Str) (o : Opt) : Prop :=
  2 ≤ a.length ∧ ∃ n ∈ o.strings, a <+: n ∧ (a = n ∨ ∀ n' ∈ optionNames p, a <+: n' → n' = n)

/-- `a` surely names option `o`: it is one of its names; or short for one of them and no other name, and does not begin with a one-letter name. -/
def Calls (p : Parser) (a : Str) (o : Opt) : Prop :=
  a ∈ o.strings ∨ (2 ≤ a.length ∧ a ≠ ['-', '-'] ∧ a ∉ optionNames p ∧ a.take 2 ∉ optionNames p ∧
    ∃ n ∈ o.strings, a <+: n ∧ ∀ n' ∈ optionNames p, a <+: n' → n' = n)

/-- `v` as a value of option `o`. -/
def Fits (u : Beyond) (o : Opt) (v : Str) (x : Value) : Prop :=
  (o.kind = .int ∧ ∃ i, u.int v = some i ∧ x = .int i) ∨
  (o.kind = .text ∧ x = .text v ∧ ∀ cs, o.choices = some cs → v ∈ cs)

/-- A value that can stand behind its option: it does not begin with a dash, or is a single dash, or a negative number. -/
def Plain (v : Str) : Prop :=
  v.head? ≠ some '-' ∨ v = ['-'] ∨ ∃ ds, v = '-' :: ds ∧ ds ≠ [] ∧ ∀ c ∈ ds, c.toNat < 128 ∧ c.isDigit = true

/-- The ways to use an option: alone, with a value behind it, with "=" and a value, and with a value right behind a one-letter name. -/
inductive Use where
  | flag (a : Str)
  | value (a v : Str)
  | joined (a v : Str)
  | attached (n v : Str)

/-- What is typed. -/
def Use.args : Use → List Str
  | .flag a => [a]
  | .value a v => [a, v]
  | .joined a v => [a ++ '=' :: v]
  | .attached n v => [n ++ v]

/-- An option used, with the value it is given. -/
structure Usage where
  use : Use
  opt : Opt
  value : Value

/-- The use is one of that option, and gives it that value. -/
def Usage.Right (u : Beyond) (p : Parser) (m : Usage) : Prop :=
  m.opt ∈ p ∧ match m.use with
    | .flag a => Calls p a m.opt ∧ m.opt.kind = .flag ∧ m.value = .flag true
    | .value a v => Calls p a m.opt ∧ Plain v ∧ Fits u m.opt v m.value
    | .joined a v => (a ∈ m.opt.strings ∨ (Calls p a m.opt ∧ ['-', '-'] <+: a)) ∧ Fits u m.opt v m.value
    | .attached _ _ => False

/-- A text that may be taken for a value: it does not begin with a dash, or is a single dash, or has a blank, or may be a negative number. -/
def Behind (v : Str) : Prop :=
  v.head? ≠ some '-' ∨ v = ['-'] ∨ ' ' ∈ v ∨ ∃ c, v[1]? = some c ∧ (c.isDigit = true ∨ c = '.' ∨ 128 ≤ c.toNat)

/-- The same as `Usage.Right`, but for what is known of a use that was accepted. -/
def Usage.Written (u : Beyond) (p : Parser) (m : Usage) : Prop :=
  m.opt ∈ p ∧ match m.use with
    | .flag a => Short p a m.opt ∧ m.opt.kind = .flag ∧ m.value = .flag true
    | .value a v => Short p a m.opt ∧ Behind v ∧ Fits u m.opt v m.value
    | .joined a v => Short p a m.opt ∧ Fits u m.opt v m.value
    | .attached n v => n ∈ m.opt.strings ∧ n.length = 2 ∧ n ++ v ∉ optionNames p ∧ Fits u m.opt v m.value

/-- The value of option `o` after `ms`: the last one given, or the default. -/
def lastValue (o : Opt) (ms : List Usage) : Value :=
  match (ms.filter fun m => m.opt = o).getLast? with
  | some m => m.value
  | none => o.default

/-- Help is asked for: by a name of the option for help, a short form of it, or something that begins with its one-letter name. -/
def AsksHelp (p : Parser) (a : Str) : Prop := ∃ o ∈ p, o.kind = .help ∧ (Short p a o ∨ ∃ n ∈ o.strings, n.length = 2 ∧ n <+: a)

/-- No option: it begins with a dash, but not with a one-letter name, and what is before the "=", if there is one, is no name nor short for one. It has
no blank and is no number. -/
def Unknown (p : Parser) (a : Str) : Prop :=
  ¬ Behind a ∧ a.take 2 ∉ optionNames p ∧ ∀ n ∈ optionNames p, ∀ b, '=' ∉ b → (a = b ∨ ∃ v, a = b ++ '=' :: v) → ¬ b <+: n

/-! ### What the tools are told -/

/-- The last value given to the option with that destination. -/
def lastOf (d : String) (ms : List Usage) : Option Value := ((ms.filter fun m => m.opt.dest = d).getLast?).map fun m => m.value

/-- The flags that are used. -/
def flagsOf (ms : List Usage) : List String := (ms.filter fun m => m.opt.kind = .flag).map fun m => m.opt.dest

/-- `t` is what `ms` tells bem and bsm. -/
def Means (ms : List Usage) (t : Cli.Typed) : Prop :=
  lastOf "server_type" ms = some (.text t.serverType.toList) ∧ lastOf "server_details" ms = some (.text t.details) ∧
  lastOf "route_key" ms = some (.text t.routeKey) ∧ (∀ k, t.spanKey = some k ↔ lastOf "span_key" ms = some (.text k)) ∧ t.options = flagsOf ms

/-- `t` is what `ms` tells stat. -/
def StatMeans (ms : List Usage) (t : Cli.StatTyped) : Prop :=
  lastOf "server_type" ms = some (.text t.serverType.toList) ∧ lastOf "server_details" ms = some (.text t.details) ∧
  ∀ y, t.type = some y ↔ lastOf "type" ms = some (.text y.toList)

/-- `t` is what `ms` tells log. -/
def LogMeans (ms : List Usage) (t : Cli.LogTyped) : Prop :=
  lastOf "server_type" ms = some (.text t.serverType.toList) ∧ lastOf "server_details" ms = some (.text t.details) ∧
  (∀ y, t.level = some y ↔ lastOf "level" ms = some (.text y.toList)) ∧
  ((t.buffer = none ∧ lastOf "buff_size" ms = none) ∨
    ∃ b i, t.buffer = some b ∧ Str.toInt b = .ok i ∧ lastOf "buff_size" ms = some (.int i))

end Verif.Args.Spec
