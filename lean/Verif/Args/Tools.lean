import Verif.Args.Model
import Verif.Cli.LogTool

/-!
# The tools, from the command line on

ekosis/cli/{bem,bsm,stat,log}.py: `parse_args` of `Verif.Args` and then what `Verif.Cli` says. Where the parser ends the program, so does the tool.
-/

namespace Verif.Args

open Verif.Py Verif.Cli

/-- `command_line_args.name` of a text. Simplified: a value that is no text is the empty one; what is required is always a text. -/
def textOf (ns : Dict String Value) (d : String) : Str :=
  match ns.get? d with
  | some (.text s) => s
  | _ => []

/-- The same for a text that may be `None`. -/
def textOf? (ns : Dict String Value) (d : String) : Option Str :=
  match ns.get? d with
  | some (.text s) => some s
  | _ => none

/-- `command_line_args.name` of an int that may be `None`. -/
def intOf? (ns : Dict String Value) (d : String) : Option Int :=
  match ns.get? d with
  | some (.int i) => some i
  | _ => none

/-- The attributes of the `Namespace` bem.py and bsm.py read. Every flag has a value, so that no attribute is missing. -/
def queueNamespace (group : List String) (ns : Dict String Value) : Namespace :=
  ⟨String.ofList (textOf ns "server_type"), textOf ns "server_details", textOf ns "route_key", textOf? ns "span_key",
    group.map fun o => (o, decide (ns.get? o = some (.flag true)))⟩

/-- bem.py 23-28 and 94-103; bsm.py 19-24 and 81-90 -/
def queueTool (u : Beyond) (p : Parser) (group : List String) (action : Namespace → Run Request) (argv : List Str) : Run (Client × Request) :=
  match parse u p argv with
  | .error n => .exit n
  | .ok ns => match getClient (queueNamespace group ns).serverType (queueNamespace group ns).details with
    | .error e => .raised e
    | .ok c =>
      if (queueNamespace group ns).routeKey = [] then .exit 1
      else match action (queueNamespace group ns) with
        | .exit n => .exit n
        | .raised e => .raised e
        | .sent r => .sent (c, r)

def bemMain (u : Beyond) : List Str → Run (Client × Request) := queueTool u bem endpointGroup endpointAction
def bsmMain (u : Beyond) : List Str → Run (Client × Request) := queueTool u bsm senderGroup senderAction

/-- stat.py 22-27 -/
def statMain (u : Beyond) (argv : List Str) : Run (Client × String) :=
  match parse u stat argv with
  | .error n => .exit n
  | .ok ns => match getClient (String.ofList (textOf ns "server_type")) (textOf ns "server_details") with
    | .error e => .raised e
    | .ok c => .sent (c, String.ofList (textOf ns "type"))

/-- log.py 30-41: `if command_line_args.level is not None`, `if command_line_args.buff_size is not None`. -/
def logMain (u : Beyond) (argv : List Str) : Run (Client × List LogRequest) :=
  match parse u log argv with
  | .error n => .exit n
  | .ok ns => match getClient (String.ofList (textOf ns "server_type")) (textOf ns "server_details") with
    | .error e => .raised e
    | .ok c => .sent (c, ((textOf? ns "level").toList.map fun l => LogRequest.level (String.ofList l)) ++ (intOf? ns "buff_size").toList.map LogRequest.buffer)

end Verif.Args
