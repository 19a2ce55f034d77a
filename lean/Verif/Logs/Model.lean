/-!
# Logging (ekosis/logs, ekosis/data_transfer_objects/otlp_log_record.py, and the parts of Python's logging package they use)

Line numbers of `logging/__init__.py` and `logging/handlers.py` are those of Python 3.11. Everything here runs on one thread without
suspension points, so a call is one step. Simplifications: file operations succeed; the files are changed by nobody else; the attributes
`timestamp`, `filename`, `lineno`, `module`, `funcName` and the application's name and instance, which are the same whenever a record is
formatted, are left out; the JSON text of a line is represented by its fields, and its length in characters and in bytes is a parameter.
-/

namespace Verif.Logs

/-- The trace id and span id of the request being handled, as hexadecimal text (otlp_formatter.py 36-37). -/
structure Key where
  traceId : String
  spanId : String
  deriving DecidableEq, Repr

/-- `logging.LogRecord`: what is kept of a call of `log.info` and its like. `message` is what `getMessage()` gives; `none` stands for a
record that cannot be formatted: `getMessage()` raises because the arguments do not fit, or the text cannot be written as UTF-8. -/
structure Record where
  levelno : Nat
  message : Option String
  deriving DecidableEq, Repr

/-- `OtlpLogRecord`, otlp_log_record.py 20-27. -/
structure Line where
  severityNumber : Nat
  severityText : String
  body : String
  traceId : Option String
  spanId : Option String
  deriving DecidableEq, Repr

/-- The length of `json + "\n"` in characters (`len(msg)`) and in bytes (what `tell` counts). -/
structure Enc where
  chars : Line → Nat
  bytes : Line → Nat

/-- `severity_for_levelno`, otlp_log_record.py 7-17. -/
def severityForLevelno (levelno : Nat) : Nat × String :=
  if levelno = 10 then (5, "DEBUG")
  else if levelno = 20 then (9, "INFO")
  else if levelno = 30 then (13, "WARN")
  else if levelno = 40 then (17, "ERROR")
  else if levelno = 50 then (21, "FATAL")
  else (0, "UNSPECIFIED")

/-- `OtlpFormatter.format`, otlp_formatter.py 10-39. `key` is what `_get_current_span_key()` gives at this moment; `none` as result
stands for an exception. -/
def format (key : Option Key) (r : Record) : Option Line :=
  match r.message with
  | none => none
  | some body =>
    some { severityNumber := (severityForLevelno r.levelno).1,
           severityText := (severityForLevelno r.levelno).2,
           body := body,
           traceId := key.map (·.traceId),
           spanId := key.map (·.spanId) }

/-! ## The rotating file -/

abbrev File := List Line

/-- The log file `base`, and the rotated files `base.1`, `base.2`, ... -/
structure Disk where
  cur : File
  old : Nat → Option File

/-- `stream.tell()` at the end of the file. -/
def tell (e : Enc) (f : File) : Nat := (f.map e.bytes).sum

/-- One round of the loop of `doRollover` (handlers.py 167-175): `base.i` becomes `base.(i+1)`, if it exists. -/
def shift (old : Nat → Option File) (i : Nat) : Nat → Option File :=
  match old i with
  | none => old
  | some f => fun j => if j = i + 1 then some f else if j = i then none else old j

/-- The loop of `doRollover`: `for i in range(backupCount - 1, 0, -1)`; the argument is the next `i`. -/
def shiftFrom : Nat → (Nat → Option File) → (Nat → Option File)
  | 0, old => old
  | i + 1, old => shiftFrom i (shift old (i + 1))

/-- `RotatingFileHandler.doRollover` (handlers.py 160-181). -/
def doRollover (backupCount : Int) (d : Disk) : Disk :=
  if backupCount > 0 then
    let old := shiftFrom (backupCount.toNat - 1) d.old
    { cur := [], old := fun j => if j = 1 then some d.cur else old j }
  else d

/-- `RotatingFileHandler.shouldRollover` (handlers.py 183-200); the record has been formatted. -/
def shouldRollover (e : Enc) (maxBytes : Int) (d : Disk) (l : Line) : Bool :=
  decide (maxBytes > 0) && decide (((tell e d.cur + e.chars l : Nat) : Int) ≥ maxBytes)

/-- `BaseRotatingHandler.emit` (handlers.py 65-77): an exception is reported on stderr by `handleError`, and the record is gone. The
record is formatted a second time by `FileHandler.emit`, with the same result. The second component is what is written. -/
def rotatingEmit (e : Enc) (maxBytes backupCount : Int) (key : Option Key) (d : Disk) (r : Record) : Disk × List Line :=
  match format key r with
  | none => (d, [])
  | some l =>
    let d := if shouldRollover e maxBytes d l then doRollover backupCount d else d
    ({ d with cur := d.cur ++ [l] }, [l])

/-! ## The buffering handler -/

/-- `BufferedRotatingFileHandler`, buffered_rotating_file_handler.py 4-40. -/
structure FileHandler where
  level : Nat
  capacity : Int
  buffer : List Record
  maxBytes : Int
  backupCount : Int
  disk : Disk

/-- The loop of `flush`, buffered_rotating_file_handler.py 34-35. -/
def emitAll (e : Enc) (maxBytes backupCount : Int) (key : Option Key) : Disk → List Record → Disk × List Line
  | d, [] => (d, [])
  | d, r :: rs =>
    let (d₁, w₁) := rotatingEmit e maxBytes backupCount key d r
    let (d₂, w₂) := emitAll e maxBytes backupCount key d₁ rs
    (d₂, w₁ ++ w₂)

/-- `flush`, buffered_rotating_file_handler.py 33-36. -/
def FileHandler.flush (e : Enc) (key : Option Key) (h : FileHandler) : FileHandler × List Line :=
  let (d, w) := emitAll e h.maxBytes h.backupCount key h.disk h.buffer
  ({ h with buffer := [], disk := d }, w)

/-- `BufferingHandler.emit` and `shouldFlush` (handlers.py 1304-1322). -/
def FileHandler.emit (e : Enc) (key : Option Key) (h : FileHandler) (r : Record) : FileHandler × List Line :=
  let h := { h with buffer := h.buffer ++ [r] }
  if (h.buffer.length : Int) ≥ h.capacity then h.flush e key else (h, [])

/-- `close`, buffered_rotating_file_handler.py 38-40: closes the rotating handler, then `BufferingHandler.close` (handlers.py
1336-1345) flushes; writing opens the file again (`FileHandler.emit`, `mode` is 'a'). -/
def FileHandler.close (e : Enc) (key : Option Key) (h : FileHandler) : FileHandler × List Line := h.flush e key

/-- The console: a `StreamHandler` (logger.py 35-39) that formats and writes at once. -/
structure Console where
  level : Nat
  out : List Line

/-- `StreamHandler.emit`; an exception is reported by `handleError`. -/
def Console.emit (key : Option Key) (c : Console) (r : Record) : Console :=
  match format key r with
  | none => c
  | some l => { c with out := c.out ++ [l] }

/-! ## The logger -/

/-- `ConfigLogging` and `ConfigLoggingFile`, as far as used (config_models.py). -/
structure Config where
  level : String
  fileOnly : Bool
  consoleOnly : Bool
  bufferSize : Int
  maxSizeInBytes : Int
  maxFiles : Int

/-- `EcoLogger` and the root logger. -/
structure State where
  level : Nat
  file : Option FileHandler
  console : Option Console

/-- `EcoLogger.setup`, logger.py 11-39 and 77-92, with the files found on disk. `__level` is `logging.DEBUG` (line 14). -/
def setup (c : Config) (d : Disk) : State :=
  { level := 10,
    file := if c.consoleOnly then none
            else some { level := 10, capacity := c.bufferSize, buffer := [], maxBytes := c.maxSizeInBytes,
                        backupCount := c.maxFiles, disk := d },
    console := if c.fileOnly then none else some { level := 10, out := [] } }

/-- `__set_level`, logger.py 42-51. -/
def setLevelNo (s : State) (level : Nat) : State :=
  { level := level,
    file := s.file.map fun h => { h with level := level },
    console := s.console.map fun c => { c with level := level } }

/-- `set_level`, logger.py 54-68. -/
def setLevel (s : State) (level : String) : State :=
  let s := if level = "debug" then setLevelNo s 10 else s
  let s := if level = "info" then setLevelNo s 20 else s
  let s := if level = "warn" then setLevelNo s 30 else s
  let s := if level = "error" then setLevelNo s 40 else s
  if level = "critical" then setLevelNo s 50 else s

/-- A logging call: `Logger.isEnabledFor`, `Logger.handle`, `callHandlers` (`record.levelno >= hdlr.level`), logging/__init__.py
1524-1754, for the root logger and loggers below it that have no level of their own. The second component is what is written to the log
file. -/
def logCall (e : Enc) (key : Option Key) (s : State) (r : Record) : State × List Line :=
  if r.levelno ≥ s.level then
    let (file, w) := match s.file with
      | none => (none, [])
      | some h =>
        if r.levelno ≥ h.level then
          let (h, w) := h.emit e key r
          (some h, w)
        else (some h, [])
    let console := s.console.map fun c => if r.levelno ≥ c.level then c.emit key r else c
    ({ s with file := file, console := console }, w)
  else (s, [])

/-- The text logged by `EcoLogger.set_buffer_size`, logger.py 72. -/
def bufferMessage (n : Int) : String := "Setting log buffer size to " ++ toString n ++ "."

/-- `EcoLogger.set_buffer_size`, logger.py 71-74, with `set_buffer_size` of the handler (buffered_rotating_file_handler.py 27-28). -/
def setBufferSize (e : Enc) (key : Option Key) (s : State) (n : Int) : State × List Line :=
  let (s, w) := logCall e key s { levelno := 20, message := some (bufferMessage n) }
  ({ s with file := s.file.map fun h => { h with capacity := n } }, w)

/-- `EcoLogger.flush`, logger.py 95-100; flushing the console writes nothing. -/
def flush (e : Enc) (key : Option Key) (s : State) : State × List Line :=
  match s.file with
  | none => (s, [])
  | some h =>
    let (h, w) := h.flush e key
    ({ s with file := some h }, w)

/-- `logging.shutdown` at the end of the process (logging/__init__.py 2187-2223): flush, then close. -/
def shutdown (e : Enc) (key : Option Key) (s : State) : State × List Line :=
  match s.file with
  | none => (s, [])
  | some h =>
    let (h, w₁) := h.flush e key
    let (h, w₂) := h.close e key
    ({ s with file := some h }, w₁ ++ w₂)

/-! ## Histories -/

/-- What the application does with its log. `key` is the span key of the context in which it happens. -/
inductive Event where
  | log (key : Option Key) (r : Record)
  /-- the endpoint `eco.log.level`, log_manager.py 17-21 -/
  | setLevel (key : Option Key) (level : String)
  /-- `EcoLogger.set_buffer_size` -/
  | setBufferSize (key : Option Key) (n : Int)
  | flush (key : Option Key)
  | shutdown (key : Option Key)
  deriving DecidableEq, Repr

def step (e : Enc) (s : State) : Event → State × List Line
  | .log key r => logCall e key s r
  | .setLevel _ level => (setLevel s level, [])
  | .setBufferSize key n => setBufferSize e key s n
  | .flush key => flush e key s
  | .shutdown key => shutdown e key s

/-- The state after a history, and all lines written to the log file, in order. -/
def run (e : Enc) : State → List Event → State × List Line
  | s, [] => (s, [])
  | s, ev :: evs =>
    let (s₁, w₁) := step e s ev
    let (s₂, w₂) := run e s₁ evs
    (s₂, w₁ ++ w₂)

/-- The number of records kept in memory. -/
def unwritten (s : State) : Nat :=
  match s.file with
  | none => 0
  | some h => h.buffer.length

end Verif.Logs
