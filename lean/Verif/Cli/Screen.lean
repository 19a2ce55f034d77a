import Verif.Cli.Model
import Verif.Wire.Model

/-!
# What the queue and statistics tools print

cli/senders/queue_management_sender_base.py ("qm"), cli/senders/statistics.py, cli/senders/log.py; the answers of
standard_endpoints/buffered_handler_manager.py ("hm") and buffered_sender_manager.py ("sm") as data transfer objects
(data_transfer_objects/queue_management.py, "dto"); `json.dumps(.., indent=4)` of CPython 3.11 (json/encoder.py, "enc") and
`model_dump_json(indent=4)` of pydantic. Texts are lists of characters.
-/

namespace Verif.Cli

open Verif.Py Verif.Span Verif.Wire

/-! ### Writing JSON with indentation -/

/-- How texts and floats are written. -/
structure Style where
  esc : Char → Str
  float : String → Str

/-- `'{0:04x}'.format(n)` for numbers below 65536, enc 60, 67. -/
def hex4Text (n : Nat) : Str := [hexDigit (n / 4096), hexDigit (n / 256), hexDigit (n / 16), hexDigit n]

/-- `py_encode_basestring_ascii`, enc 21-32, 49-68: everything but the characters from the blank to the tilde is escaped, with two escapes for
characters beyond U+FFFF. -/
def escapeAscii (c : Char) : Str :=
  if c = '\\' then ['\\', '\\']
  else if c = '"' then ['\\', '"']
  else if c = '\x08' then ['\\', 'b']
  else if c = '\x0c' then ['\\', 'f']
  else if c = '\n' then ['\\', 'n']
  else if c = '\r' then ['\\', 'r']
  else if c = '\t' then ['\\', 't']
  else if 32 ≤ c.toNat ∧ c.toNat ≤ 126 then [c]
  else if c.toNat < 0x10000 then '\\' :: 'u' :: hex4Text c.toNat
  else '\\' :: 'u' :: (hex4Text (0xd800 + (c.toNat - 0x10000) / 1024) ++ '\\' :: 'u' :: hex4Text (0xdc00 + (c.toNat - 0x10000) % 1024))

/-- `floatstr`, enc 224-244: NaN and the infinities are written although JSON does not have them. -/
def floatText (P : Floats) (r : String) : Str :=
  match P.text r with
  | some t => t
  | none => if r = "nan" then "NaN".toList else if r = "inf" then "Infinity".toList else "-Infinity".toList

/-- `'\n' + _indent * _current_indent_level`, enc 290, 346. -/
def newline (level : Nat) : Str := '\n' :: List.replicate (4 * level) ' '

/-- A text in quotes. -/
def quoted (S : Style) (s : String) : Str := '"' :: (s.toList.flatMap S.esc ++ ['"'])

mutual

/-- `_iterencode` with an indentation of four, enc 278-443. -/
def pretty (S : Style) : Nat → Json → Str
  | _, .null => "null".toList
  | _, .bool true => "true".toList
  | _, .bool false => "false".toList
  | _, .int i => writeInt i
  | _, .float r => S.float r
  | _, .str s => quoted S s
  | _, .arr [] => "[]".toList
  | l, .arr (v :: vs) => '[' :: (newline (l + 1) ++ (prettyItems S (l + 1) (v :: vs) ++ (newline l ++ [']'])))
  | _, .obj [] => "{}".toList
  | l, .obj (x :: xs) => '{' :: (newline (l + 1) ++ (prettyFields S (l + 1) (x :: xs) ++ (newline l ++ ['}'])))

/-- The loop of `_iterencode_list`, enc 297-326. -/
def prettyItems (S : Style) : Nat → List Json → Str
  | _, [] => []
  | l, [v] => pretty S l v
  | l, v :: v' :: vs => pretty S l v ++ ',' :: (newline l ++ prettyItems S l (v' :: vs))

/-- The loop of `_iterencode_dict`, enc 357-406. -/
def prettyFields (S : Style) : Nat → List (String × Json) → Str
  | _, [] => []
  | l, [(k, v)] => quoted S k ++ ':' :: ' ' :: pretty S l v
  | l, (k, v) :: x :: xs => quoted S k ++ ':' :: ' ' :: (pretty S l v ++ ',' :: (newline l ++ prettyFields S l (x :: xs)))

end

/-- `json.dumps(j, indent=4)`. -/
def dumps (P : Floats) (j : Json) : Str := pretty ⟨escapeAscii, floatText P⟩ 0 j

/-- `model.model_dump_json(indent=4)` for a model with fields `j`: pydantic leaves characters beyond ASCII as they are, and writes `null` for
NaN and the infinities (no model printed here has floats). -/
def dumpModel (P : Floats) (j : Json) : Str := pretty ⟨escape, fun r => (P.text r).getD "null".toList⟩ 0 j

/-! ### The answer as a data transfer object -/

/-- `BufferedEndpointInformationDto | BufferedSenderInformationDto | List[str]`, dto 14-34. -/
inductive QueueData where
  | endpoint (route : String) (receivingPaused processingPaused : Bool) (pending error : Int)
  | sender (route : String) (paused : Bool) (pending error : Int)
  | keys (ks : List String)
  deriving DecidableEq

/-- `QManagementResponseDto`, dto 33-36. -/
structure Shown where
  queueData : Option QueueData := none
  requestData : Json := .null
  message : String
  deriving DecidableEq

/-- `QDatabaseSizesDto`, dto 14-16. -/
def sizesJson (pending error : Int) : Json := .obj [("pending", .int pending), ("error", .int error)]

/-- The fields of the union's members, in their order. -/
def QueueData.json : QueueData → Json
  | .endpoint r a b p e =>
    .obj [("route_key", .str r), ("receiving_paused", .bool a), ("processing_paused", .bool b), ("database_sizes", sizesJson p e)]
  | .sender r a p e => .obj [("route_key", .str r), ("send_process_paused", .bool a), ("database_sizes", sizesJson p e)]
  | .keys ks => .arr (ks.map .str)

/-- `QManagementResponseDto` as JSON, as the server writes it. -/
def Shown.fields (r : Shown) : List (String × Json) :=
  [("queue_data", match r.queueData with | none => .null | some d => d.json), ("request_data", r.requestData), ("message", .str r.message)]

/-- Validation of `QDatabaseSizesDto`. Coercions (from text, from whole floats) are left out here and below. -/
def readSizes : Json → Option (Int × Int)
  | .obj fs => match Dict.get? fs "pending", Dict.get? fs "error" with
    | some (.int p), some (.int e) => some (p, e)
    | _, _ => none
  | _ => none

/-- Validation of `BufferedEndpointInformationDto`. -/
def readEndpoint (fs : List (String × Json)) : Option QueueData :=
  match Dict.get? fs "route_key", Dict.get? fs "receiving_paused", Dict.get? fs "processing_paused", Dict.get? fs "database_sizes" with
  | some (.str r), some (.bool a), some (.bool b), some d => match readSizes d with
    | some (p, e) => some (.endpoint r a b p e)
    | none => none
  | _, _, _, _ => none

/-- Validation of `BufferedSenderInformationDto`. -/
def readSender (fs : List (String × Json)) : Option QueueData :=
  match Dict.get? fs "route_key", Dict.get? fs "send_process_paused", Dict.get? fs "database_sizes" with
  | some (.str r), some (.bool a), some d => match readSizes d with
    | some (p, e) => some (.sender r a p e)
    | none => none
  | _, _, _ => none

/-- Validation of `List[str]`. -/
def readKeys : List Json → Option (List String)
  | [] => some []
  | .str s :: rest => (readKeys rest).map (s :: ·)
  | _ :: _ => none

/-- Validation of the union: the member that fits. Simplification: of two that fit (a dictionary with the fields of both) the first, where
pydantic compares how many fields are set. -/
def readQueueData : Json → Option (Option QueueData)
  | .null => some none
  | .arr items => (readKeys items).map fun ks => some (.keys ks)
  | .obj fs => match readEndpoint fs with
    | some d => some (some d)
    | none => (readSender fs).map some
  | _ => none

/-- `QManagementResponseDto(**fields)`, client_base.py 84, dto 33-36. -/
def readShown (fs : List (String × Json)) : Option Shown :=
  match Dict.get? fs "message", readQueueData ((Dict.get? fs "queue_data").getD .null) with
  | some (.str m), some d => some ⟨d, (Dict.get? fs "request_data").getD .null, m⟩
  | _, _ => none

/-! ### The answers of the endpoints -/

/-- The end of the message of an endpoint that did its work, hm 37, 50, 63, 76, 89, 102, 115, 128, 141, 154, 171, 187, 203; `key` is the text of the
span key. -/
def handlerDone (route : String) (key : Str) : Str :=
  if route = "eco.buffered_handler.data" then "Data retrieved.".toList
  else if route = "eco.buffered_handler.receiving.pause" then "Paused RECEIVING.".toList
  else if route = "eco.buffered_handler.receiving.unpause" then "UN-Paused RECEIVING.".toList
  else if route = "eco.buffered_handler.processing.pause" then "Paused PROCESSING.".toList
  else if route = "eco.buffered_handler.processing.unpause" then "UN-Paused PROCESSING.".toList
  else if route = "eco.buffered_handler.all.pause" then "Paused ALL.".toList
  else if route = "eco.buffered_handler.all.unpause" then "UN-Paused ALL.".toList
  else if route = "eco.buffered_handler.errors.get_first_10" then "Retrieved first 10 span-keys for error database.".toList
  else if route = "eco.buffered_handler.errors.reprocess.all" then "Error database entries, moved to incoming database.".toList
  else if route = "eco.buffered_handler.errors.clear" then "Error database cleared.".toList
  else if route = "eco.buffered_handler.errors.reprocess.one" then
    "Error database entry[".toList ++ key ++ "] moved to incoming database.".toList
  else if route = "eco.buffered_handler.errors.pop_request" then "POPPED Error database entry[".toList ++ key ++ "].".toList
  else "INSPECTING Error database entry[".toList ++ key ++ "].".toList

/-- The same for senders, sm 36, 49, 62, 75, 88, 101, 118, 134, 150. -/
def senderDone (route : String) (key : Str) : Str :=
  if route = "eco.buffered_sender.data" then "Data retrieved.".toList
  else if route = "eco.buffered_sender.send_process.pause" then "Paused SEND PROCESS.".toList
  else if route = "eco.buffered_sender.send_process.unpause" then "UN-Paused SEND PROCESS.".toList
  else if route = "eco.buffered_sender.errors.get_first_10" then "Retrieved first 10 span-keys for error database.".toList
  else if route = "eco.buffered_sender.errors.reprocess.all" then "Error database entries, moved to Retry database.".toList
  else if route = "eco.buffered_sender.errors.clear" then "Error database cleared.".toList
  else if route = "eco.buffered_sender.errors.reprocess.one" then
    "Error database entry[".toList ++ key ++ "] moved to Retry database.".toList
  else if route = "eco.buffered_sender.errors.pop_request" then "POPPED Error database entry[".toList ++ key ++ "].".toList
  else "INSPECTING Error database entry[".toList ++ key ++ "].".toList

/-- The text of the key of a request. -/
def Request.keyText (r : Request) : Str :=
  match r.key with
  | none => []
  | some k => k.text

/-- What an endpoint for buffered endpoints returns, hm 15-204; `none` when it raised or was not reached, and the client gets an error. -/
def handlerShown (r : Request) : Answer HInfo Json → Option Shown
  | .noQueue => some { message := String.ofList ("No queue for route key: [".toList ++ r.queue ++ "]".toList) }
  | .noRequest => some
    { message := String.ofList <|
        "No request with span-key [".toList ++ r.keyText ++ "] in error queue for route key: [".toList ++ r.queue ++ "]".toList }
  | .info i => some
    { queueData := some (.endpoint (String.ofList r.queue) i.receivingPaused i.processingPaused i.pending i.error)
      message := String.ofList ("Buffered Endpoint[".toList ++ r.queue ++ "]: ".toList ++ handlerDone r.route r.keyText) }
  | .keys ks => some
    { queueData := some (.keys (ks.map String.ofList))
      message := String.ofList ("Buffered Endpoint[".toList ++ r.queue ++ "]: ".toList ++ handlerDone r.route r.keyText) }
  | .request i d => some
    { queueData := some (.endpoint (String.ofList r.queue) i.receivingPaused i.processingPaused i.pending i.error)
      requestData := d
      message := String.ofList ("Buffered Endpoint[".toList ++ r.queue ++ "]: ".toList ++ handlerDone r.route r.keyText) }
  | .raised _ => none
  | .invalid => none
  | .unknown => none

/-- What an endpoint for buffered senders returns, sm 15-151. -/
def senderShown (r : Request) : Answer SInfo Json → Option Shown
  | .noQueue => some { message := String.ofList ("No buffered sender with route key: [".toList ++ r.queue ++ "]".toList) }
  | .noRequest => some
    { message := String.ofList <|
        "No request with span-key [".toList ++ r.keyText ++ "] in buffered sender error database, for route key: [".toList ++ r.queue ++ "]".toList }
  | .info i => some
    { queueData := some (.sender (String.ofList r.queue) i.paused i.pending i.error)
      message := String.ofList ("Buffered Sender[".toList ++ r.queue ++ "]: ".toList ++ senderDone r.route r.keyText) }
  | .keys ks => some
    { queueData := some (.keys (ks.map String.ofList))
      message := String.ofList ("Buffered Sender[".toList ++ r.queue ++ "]: ".toList ++ senderDone r.route r.keyText) }
  | .request i d => some
    { queueData := some (.sender (String.ofList r.queue) i.paused i.pending i.error)
      requestData := d
      message := String.ofList ("Buffered Sender[".toList ++ r.queue ++ "]: ".toList ++ senderDone r.route r.keyText) }
  | .raised _ => none
  | .invalid => none
  | .unknown => none

/-! ### The screen -/

/-- Python's truth value of what `json.loads` builds. -/
def Json.truthy : Json → Bool
  | .null => false
  | .bool b => b
  | .int i => i ≠ 0
  | .float r => r ≠ "0.0" && r ≠ "-0.0"
  | .str s => s ≠ ""
  | .arr l => !l.isEmpty
  | .obj l => !l.isEmpty

/-- `print(text)`. -/
def printed (s : Str) : Str := s ++ ['\n']

/-- The lines of 80 characters. -/
def rule (c : Char) : Str := List.replicate 80 c

/-- The part about the queue, qm 21-24. -/
def queuePart (P : Floats) : Option QueueData → Str
  | none => []
  | some (.keys ks) => printed ("First 10 error span-keys:\n".toList ++ dumps P (QueueData.json (.keys ks)))
  | some d => printed ("Queue information:\n".toList ++ dumpModel P d.json)

/-- The part about the request, qm 25-27. -/
def requestPart (P : Floats) (d : Json) : Str :=
  if Json.truthy d then printed (rule '-') ++ printed ("Request information:\n".toList ++ dumps P d) else []

/-- `print_response`, qm 17-28. -/
def screen (P : Floats) (r : Shown) : Str :=
  printed (rule '=') ++ (printed r.message.toList ++ (printed (rule '-') ++ (queuePart P r.queueData ++ (requestPart P r.requestData ++ printed (rule '=')))))

/-- `print_response` of cli/senders/statistics.py 9-14; the same frame in cli/senders/log.py 20-24 and 39-43. -/
def titledScreen (P : Floats) (title : String) (j : Json) : Str :=
  printed (rule '=') ++ (printed title.toList ++ (printed (rule '-') ++ (printed (dumps P j) ++ printed (rule '='))))

end Verif.Cli
