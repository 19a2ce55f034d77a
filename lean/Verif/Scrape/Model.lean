import Verif.Config.Model
import Verif.Prom.Model

/-!
# Finding and polling the services of a machine

ekosis_prometheus/ekosis_prometheus/service_discovery.py and scraper.py. Not modelled: the clients (what a poll gives is part of the
input), the push to the gateway, and the rejection of metric names by the prometheus_client library.
-/

namespace Verif.Scrape

open Verif.Py Verif.Config Verif.Stats Verif.Prom

inductive Protocol where
  | tcp
  | udp
  | uds
  deriving DecidableEq, Repr

/-- `DiscoveredService`, service_discovery.py 10-17. `host` and `port` are `none` for `uds`, `path` otherwise. -/
structure Service where
  name : Str
  inst : Str
  protocol : Protocol
  address : Option (Str × Int)
  path : Option Str
  deriving DecidableEq, Repr

/-- `s.rsplit(c, 1)`: what is before and after the last `c`, or nothing if there is none. -/
def rsplit (c : Char) (s : Str) : Option (Str × Str) :=
  if c ∈ s then some ((Str.uptoLast c s).dropLast, Str.afterLast c s) else none

/-- `_parse_name_instance`, service_discovery.py 32-38. -/
def parseNameInstance (raw : Str) : Str × Str :=
  match rsplit '_' raw with
  | some (a, b) => (Str.lower a, b)
  | none => (Str.lower raw, "0".toList)

/-- The part of the loop for TCP and UDP, service_discovery.py 72-91. `isLocal` is membership in `_local_addresses()`. -/
def tcpUdp (isLocal : Str → Bool) (protocol : Protocol) (raw value : Str) : Option Service :=
  match rsplit ':' value with
  | none => none
  | some (host, port) =>
    if isLocal host then
      match Str.toInt port with
      | .ok p => some ⟨(parseNameInstance raw).1, (parseNameInstance raw).2, protocol, some (host, p), none⟩
      | .error _ => none
    else none

/-- The body of the loop over `os.environ.items()`, service_discovery.py 47-91. -/
def serviceOf (isLocal : Str → Bool) (x : Str × Str) : Option Service :=
  if "ECOENV_".toList.isPrefixOf x.1 then
    let remainder := x.1.drop 7
    if "TCP_".toList.isPrefixOf remainder then tcpUdp isLocal .tcp (remainder.drop 4) x.2
    else if "UDP_".toList.isPrefixOf remainder then tcpUdp isLocal .udp (remainder.drop 4) x.2
    else if "UDS_".toList.isPrefixOf remainder then
      let n := parseNameInstance (remainder.drop 4)
      some ⟨n.1, n.2, .uds, none, some x.2⟩
    else none
  else none

/-- `discover_local_services`, service_discovery.py 42-93. -/
def discover (isLocal : Str → Bool) (env : Env) : List Service := env.filterMap (serviceOf isLocal)

/-- A discovered service and what polling it gives: statistics or an exception, scraper.py 55-61 and 100-101. -/
structure Target where
  name : String
  inst : String
  answer : Except PyErr Store

/-- The gauge `ekosis_service_health`: for each pair of labels the value set last. -/
abbrev Health := Dict (String × String) ℚ

/-- The body of the loop over the targets, scraper.py 94-121, as far as the health is concerned. `str` is how the library turns a label
into a text. -/
def scrapeOne (str : Stat → String) (health : Health) (t : Target) : Health :=
  match t.answer with
  | .error _ => health.set (t.name, t.inst) 0
  | .ok stats =>
    match getDict stats "application" with
    | .node app =>
      let service := (Dict.get? app "name").getD (.text t.name)
      let inst := (Dict.get? app "instance").getD (.text t.inst)
      let health := health.set (str service, str inst) 1
      match (translate stats t.name t.inst defaultExclude).2 with
      | none => health
      | some _ => health.set (t.name, t.inst) 0
    | _ => health.set (t.name, t.inst) 0

/-- `_scrape_and_push`, scraper.py 82-121: a new registry every time. -/
def scrape (str : Stat → String) (ts : List Target) : Health := ts.foldl (scrapeOne str) []

end Verif.Scrape
