import Verif.Cli.Model
import Verif.Buffered.Spec
import Verif.Span.Props

/-!
# Vocabulary of C59 and C70: the documented options and what they are for
-/

namespace Verif.Cli.Spec

open Verif.Py Verif.Span Verif.Queue Verif.Queue.Spec Verif.Pending Verif.Buffered Verif.Cli

/-- What an operator can ask of a buffered endpoint, help texts of shared_queue_argument_parser.py. -/
inductive Cmd where
  | data
  | pauseReceiving
  | pauseProcessing
  | pauseAll
  | unpauseReceiving
  | unpauseProcessing
  | unpauseAll
  | first10
  | reprocessAll
  | clear
  | reprocessOne
  | inspect
  | pop
  deriving DecidableEq

/-- The option for it. -/
def Cmd.option : Cmd → List String
  | .data => []
  | .pauseReceiving => ["pause_receiving"]
  | .pauseProcessing => ["pause_processing"]
  | .pauseAll => ["pause_all"]
  | .unpauseReceiving => ["unpause_receiving"]
  | .unpauseProcessing => ["unpause_processing"]
  | .unpauseAll => ["unpause_all"]
  | .first10 => ["error_10"]
  | .reprocessAll => ["reprocess_all"]
  | .clear => ["clear"]
  | .reprocessOne => ["reprocess_one"]
  | .inspect => ["inspect_request"]
  | .pop => ["pop_request"]

/-- "[Requires -sk]" -/
def Cmd.needsKey : Cmd → Bool
  | .reprocessOne | .inspect | .pop => true
  | _ => false

/-- What is to happen to the endpoint. -/
def Cmd.events {D M R : Type} (k : SpanKey) : Cmd → List (Handler.Label SpanKey D M R)
  | .data | .first10 | .inspect => []
  | .pauseReceiving => [.pauseReceiving]
  | .pauseProcessing => [.pauseProcessing]
  | .pauseAll => [.pauseReceiving, .pauseProcessing]
  | .unpauseReceiving => [.unpauseReceiving]
  | .unpauseProcessing => [.unpauseProcessing]
  | .unpauseAll => [.unpauseReceiving, .unpauseProcessing]
  | .reprocessAll => [.reprocessAll]
  | .clear => [.clearErrors]
  | .reprocessOne => [.reprocessOne k]
  | .pop => [.popError k]

variable {D M R S : Type}

/-- The information shown is that of the endpoint. -/
def HShows (cfg : Cfg SpanKey D M R S) (h : Handler.HSt SpanKey D M R S) (i : HInfo) : Prop :=
  i.receivingPaused = h.recvPaused ∧ i.processingPaused = h.core.paused ∧
  ∃ lp le, PairHolds cfg.codecs h.core.pair lp le ∧ i.pending = lp.length ∧ i.error = le.length

/-- The information shown is that of the sender. -/
def SShows (cfg : Cfg SpanKey D M R S) (s : St SpanKey D M R S) (i : SInfo) : Prop :=
  i.paused = s.paused ∧ ∃ lp le, PairHolds cfg.codecs s.pair lp le ∧ i.pending = lp.length ∧ i.error = le.length

/-- What the operator is to be told: the keys of failed requests; the request asked for, or that there is none; otherwise the information
about the endpoint afterwards. `le` are the failed requests before. -/
def Told {I : Type} (truthy : D → Bool) (shows_ : I → Prop) (le : List (SpanKey × EEntry SpanKey D M R)) (k : SpanKey) (listing item : Bool)
    (a : Answer I D) : Prop :=
  if listing then ∃ ks, a = .keys (ks.map SpanKey.text) ∧ ks <+: (keys le).take 10
  else if item then
    (∀ v, (k, v) ∈ le → truthy v.data = true → ∃ i, shows_ i ∧ a = .request i v.data) ∧ (k ∉ keys le → a = .noRequest)
  else ∃ i, shows_ i ∧ a = .info i

/-- The server meant by `-st` and `-sd`. -/
inductive Addressed : String → Str → Client → Prop where
  | tcp (host : Str) (port : Nat) : host ≠ [] → ':' ∉ host → Addressed "tcp" (host ++ ':' :: Str.ofNat port) (.tcp host port)
  | udp (host : Str) (port : Nat) : host ≠ [] → ':' ∉ host → Addressed "udp" (host ++ ':' :: Str.ofNat port) (.udp host port)
  | uds (path : Str) : Addressed "uds" path (.uds path)

/-- What an operator can ask of a buffered sender. -/
inductive SCmd where
  | data
  | pause
  | unpause
  | first10
  | reprocessAll
  | clear
  | reprocessOne
  | inspect
  | pop
  deriving DecidableEq

/-- The documented option. -/
def SCmd.option : SCmd → List String
  | .data => []
  | .pause => ["pause_sending"]
  | .unpause => ["unpause_sending"]
  | .first10 => ["error_10"]
  | .reprocessAll => ["reprocess_all"]
  | .clear => ["clear"]
  | .reprocessOne => ["reprocess_one"]
  | .inspect => ["inspect_request"]
  | .pop => ["pop_request"]

/-- The attribute that bsm.py reads for it (it reads those of the endpoint's options for pausing). -/
def SCmd.attribute : SCmd → List String
  | .pause => ["pause_all"]
  | .unpause => ["unpause_all"]
  | c => c.option

def SCmd.needsKey : SCmd → Bool
  | .reprocessOne | .inspect | .pop => true
  | _ => false

/-- What is to happen to the sender. -/
def SCmd.events {D R : Type} (k : SpanKey) : SCmd → List (Sender.Label SpanKey D R)
  | .data | .first10 | .inspect => []
  | .pause => [.pause]
  | .unpause => [.unpause]
  | .reprocessAll => [.reprocessAll]
  | .clear => [.clearErrors]
  | .reprocessOne => [.reprocessOne k]
  | .pop => [.popError k]

/-- The attributes of the command line that bsm.py reads. -/
def attributesRead : List String :=
  ["pause_receiving", "pause_processing", "unpause_receiving", "unpause_processing", "data", "pause_all", "unpause_all", "error_10",
   "reprocess_all", "clear", "reprocess_one", "inspect_request", "pop_request"]

end Verif.Cli.Spec
