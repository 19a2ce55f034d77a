/-!
# Model of servers that begin and cease to listen

`ekosis/servers/json/tcp.py` ("tcp"), `udp.py` ("udp"), `uds.py` ("uds") on the operating system's table of addresses, for any number of applications on one
machine. `start_server`, `create_datagram_endpoint` and `start_unix_server` are asyncio's (Python 3.11.10, asyncio/base_events.py and unix_events.py 279-354).

Exceptions carry the exception during whose handling they were raised (`__context__`), which a traceback shows and `type(e)` and `str(e)` do not.

Simplifications: an address is one value (two hosts with the same port are different addresses); one server of each kind per application and
address; permissions and missing directories count as `refuses`; between two events the system is at rest.
-/

namespace Verif.Listen

/-- Exceptions: `OSError` with its number, and what Python raises for an attribute of `None`. -/
inductive Exc where
  | os (errno : Nat)
  | attribute (context : Exc)
  deriving DecidableEq, Repr

inductive Kind where
  | tcp
  | udp
  | uds
  deriving DecidableEq, Repr

/-- Addresses: of TCP and of UDP (separate spaces), and paths. -/
structure Addr where
  kind : Kind
  name : Nat
  deriving DecidableEq, Repr

/-- What there is under a path: nothing, something that is not a socket, a socket made by application `a` (whether or not `a` still listens on it). -/
inductive Entry where
  | absent
  | other
  | sock (a : Nat)
  deriving DecidableEq, Repr

/-- The machine: who listens on a port (`none`: nobody), what there is under a path, which applications serve an address (their server has been started
and not stopped), and the errors that the system has for an address besides (no permission, no such directory, ...). -/
structure Machine where
  ports : Addr → Option Nat
  files : Addr → Entry
  serving : List (Nat × Addr)
  refuses : Addr → Option Nat

/-- `EADDRINUSE` of Linux. -/
def eaddrinuse : Nat := 98

/-- `socket.bind` with `listen`, as the three asyncio functions use it. For a path: base is unix_events.py 304-329, which removes what is there if it is a
socket, and then binds. For a port: base_events.py `create_server` and `create_datagram_endpoint`; `SO_REUSEADDR` does not let two sockets listen. -/
def bind (m : Machine) (a : Nat) (x : Addr) : Except Exc Machine :=
  match m.refuses x with
  | some e => .error (.os e)
  | none => match x.kind with
    | .uds => match m.files x with
      | .other => .error (.os eaddrinuse)
      | _ => .ok { m with files := fun y => if y = x then .sock a else m.files y }
    | _ => match m.ports x with
      | some _ => .error (.os eaddrinuse)
      | none => .ok { m with ports := fun y => if y = x then some a else m.ports y }

/-- A server object: `_running`, and whether `_server` (for UDP: `__transport`) is set. -/
structure Srv where
  running : Bool
  server : Bool
  deriving DecidableEq, Repr

/-- As constructed, stream_server_base.py 9, server_base.py. -/
def Srv.new : Srv := ⟨false, false⟩

/-- `__aenter__`, then `serve` up to its first suspension: tcp 16-24 and 44-48, uds 17-28 and 49-53 (where UDS is supported), udp 53-55 and 90-92 with 73-79.
The `except` clause of TCP and UDS closes `self._server`, which is still `None`: `AttributeError`. After an exception in `serve` the `async with` of the
application calls `__aexit__` (application_base.py 249), which is `stop` (udp 58-65). -/
def start (m : Machine) (a : Nat) (x : Addr) (v : Srv) : Except Exc Unit × Srv × Machine :=
  match bind m a x with
  | .ok m' => (.ok (), ⟨true, true⟩, { m' with serving := m'.serving ++ [(a, x)] })
  | .error e => match x.kind with
    | .udp => (.error e, ⟨false, v.server⟩, m)
    | _ => if v.server then (.error e, ⟨false, v.server⟩, m) else (.error (.attribute e), ⟨false, v.server⟩, m)

/-- `Server.close()` or `transport.close()`: the system forgets the listener; the file of a path stays (asyncio of 3.11 does not remove it). -/
def close (m : Machine) (a : Nat) (x : Addr) : Machine :=
  { m with
    ports := fun y => if y = x ∧ m.ports x = some a then none else m.ports y
    serving := m.serving.filter (· ≠ (a, x)) }

/-- `stop`, tcp 31-35, uds 36-40, udp 62-65 with 81-87 (the loop ends within a second and closes the transport). -/
def stop (m : Machine) (a : Nat) (x : Addr) (v : Srv) : Srv × Machine :=
  if v.running then (⟨false, v.server⟩, close m a x) else (v, m)

/-- Who gets what a client sends to an address: a connection or datagram reaches the listener of the port; of a path, the application that made the socket, if it
still listens. -/
def reaches (m : Machine) (x : Addr) : Option Nat :=
  match x.kind with
  | .uds => match m.files x with
    | .sock a => if (a, x) ∈ m.serving then some a else none
    | _ => none
  | _ => m.ports x

/-- Events: an application starts a new server on an address; it stops its server (if it has one there). -/
inductive Ev where
  | start (a : Nat) (x : Addr)
  | stop (a : Nat) (x : Addr)
  deriving DecidableEq, Repr

/-- One event, with what `start` raised. An application that serves the address does not start another server on it (one server of each kind,
application_base.py 144-186). -/
def step (m : Machine) : Ev → Option (Except Exc Unit × Machine)
  | .start a x =>
    if (a, x) ∈ m.serving then none
    else
      let r := start m a x Srv.new
      some (r.1, r.2.2)
  | .stop a x => some (.ok (), (stop m a x ⟨decide ((a, x) ∈ m.serving), true⟩).2)

/-- A sequence of events. -/
def steps : Machine → List Ev → Option Machine
  | m, [] => some m
  | m, e :: es => match step m e with
    | none => none
    | some (_, m') => steps m' es

/-- A machine on which nobody listens, with these files and these refusals. -/
def quiet (files : Addr → Entry) (refuses : Addr → Option Nat) : Machine := ⟨fun _ => none, files, [], refuses⟩

end Verif.Listen
