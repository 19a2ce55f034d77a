import Verif.Stream.Model
import Verif.Client.Model

/-!
# Model of a stream client's attempts, seen together with the server's side of the connection

`ekosis/clients/stream_client_base.py` ("sc") and `persistent_stream_client_base.py` ("pc") at one end of a connection,
`ekosis/servers/stream_server_base.py` (`Verif.Stream`) at the other. The client writes request lines; some of the bytes have reached the
server, and its task has taken some turns (`Stream.steps`). What an attempt of the client then comes to follows from what the server has
written and from whether its end of the connection is closed: a task that ends with an exception closes the connection
(asyncio/streams.py 248-260 of Python 3.11.10), as does ss 45.

Simplifications: no heartbeats; a reply is read as a whole (C107); requests sent at the same time on one persistent client are not modelled (C44, C45).
-/

namespace Verif.Over

open Verif.Stream Verif.Client

variable {K σ : Type}

/-- How the wait of sc 38, pc 67 ends: in the time-out, or with the end of the connection or a line. `reset`: the end of the connection shows as
`ConnectionResetError` or `BrokenPipeError`, as it does when the server closes while it has not read everything; `reconnects`: the persistent client can
then open a new connection (pc 148-149). -/
inductive How where
  | timeOut
  | read (reset reconnects : Bool)
  deriving DecidableEq, Repr

/-- What the attempt of a client comes to that has read `n` replies from the connection before, sc 38-45, pc 112-119; `none`: it goes on waiting. A connection
that was accepted by a server that does not run is left open (ss 23-24). -/
def attempt (c : Conn K σ) (n : Nat) : How → Option Attempt
  | .timeOut => match c.out[n]? with
    | some _ => none
    | none => some .timeout
  | .read reset reconnects => match c.out[n]? with
    | some o => match decode o with
      | some text => some (.reply text)
      | none => some .other
    | none => match c.phase with
      | .serving => none
      | .ignored => none
      | .closed => some (if reset then .broken reconnects else .empty reconnects)
      | .crashed => some (if reset then .broken reconnects else .empty reconnects)

end Verif.Over
