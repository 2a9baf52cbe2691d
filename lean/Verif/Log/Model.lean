import Mathlib.Data.List.Basic

/-!
Model of `thetis/log.py`.  One process with its two loggers, the module-wide configuration and the
files it writes; a line of a file is a pair of logger and message (the format string is a function of
both).  `thetis_log_level` is left out: every message passes the level.
-/

namespace Verif.Log

/-- The keys of `logger_format`, log.py:24-27. -/
inductive Name
  | thetis
  | output
  deriving DecidableEq

/-- A formatted line. -/
structure Line where
  logger : Name
  text : String
  deriving DecidableEq

/-- Handler classes: `StreamHandler` on the console, `BufferHandler`, `FileHandler` on a path and
`NullHandler`. -/
inductive Handler
  | stream
  | buffer
  | file (path : String)
  | null
  deriving DecidableEq

/-- `isinstance(handler, logging.StreamHandler)`: `BufferHandler` (log.py:39) and `FileHandler` are
subclasses. -/
def Handler.isStream : Handler → Bool
  | .null => false
  | _ => true
/-- `isinstance(handler, BufferHandler)`. -/
def Handler.isBuffer : Handler → Bool
  | .buffer => true
  | _ => false
/-- `isinstance(handler, logging.FileHandler)`. -/
def Handler.isFile : Handler → Bool
  | .file _ => true
  | _ => false

/-- State of the process: handlers of both loggers, `thetis_log_config` (log.py:30-36), the lines in
the memory buffer, the console and the files (`none`: no such file). -/
structure State where
  handlers : Name → List Handler
  filename : Option String
  mem : List Line
  console : List Line
  files : String → Option (List Line)

/-- The loop `for handler in logger.handlers: if isinstance(...): logger.removeHandler(handler)`,
log.py:67-69 and 103-105: the list is changed while it is iterated over, so the element after a
removed one is skipped. -/
def rmLoop (p : Handler → Bool) : List Handler → List Handler
  | [] => []
  | [a] => if p a then [] else [a]
  | a :: b :: l => if p a then b :: rmLoop p l else a :: rmLoop p (b :: l)

/-- `set_thetis_loggers`, log.py:43-72; `root` tells rank 0.  The buffer keeps its content. -/
def setLoggers (root : Bool) (s : State) : State :=
  { s with handlers := fun n =>
      rmLoop Handler.isStream (s.handlers n) ++
        (if root then [.stream, .buffer] else [.null, .null]) }

/-- Emission by one handler: `FileHandler` opens with mode 'a' (log.py:118). -/
def emit (l : Line) (s : State) : Handler → State
  | .stream => { s with console := s.console ++ [l] }
  | .buffer => { s with mem := s.mem ++ [l] }
  | .file p => { s with files := fun q => if q = p then some (((s.files p).getD []) ++ [l]) else s.files q }
  | .null => s

/-- A message to a logger (`print_output`, `warning`, ...), log.py:164-175. -/
def message (l : Line) (s : State) : State := (s.handlers l.logger).foldl (emit l) s

/-- `os.path.join(output_directory, 'log')`, log.py:124. -/
def logPath (dir : String) : String := dir ++ "/log"

/-- The warning of log.py:144-147. -/
def changeWarning (new old : String) : Line :=
  ⟨.thetis, "WARNING Setting a log file \"" ++ new ++ "\" that differs from previous \"" ++ old ++
    "\", removing old handler"⟩

/-- `set_log_directory`, log.py:75-147; `overwrite` is `mode == 'w'`. -/
def setDir (root : Bool) (dir : String) (overwrite : Bool) (s : State) : State :=
  let logfile := logPath dir
  if s.filename = some logfile then s
  else
    let old := s.filename
    let s := if old.isSome then { s with handlers := fun n => rmLoop Handler.isFile (s.handlers n) } else s
    let s := if overwrite = true ∧ (s.files logfile).isSome ∧ root then
        { s with files := fun q => if q = logfile then none else s.files q } else s
    let s := if root then
        { s with files := fun q => if q = logfile then some s.mem else s.files q } else s
    let s := { s with handlers := fun n => rmLoop Handler.isBuffer (s.handlers n) }
    let s := { s with filename := some logfile }
    let new : Handler := if root then .file logfile else .null
    let s := { s with handlers := fun n => s.handlers n ++ [new] }
    match old with
    | some o => message (changeWarning logfile o) s
    | none => s

/-- The state before `thetis/__init__.py:31` runs `set_thetis_loggers`, with some files on disk. -/
def fresh (files : String → Option (List Line)) : State := ⟨fun _ => [], none, [], [], files⟩

/-- Calls a program makes after importing thetis. -/
inductive Ev
  | msg (l : Line)
  | dir (d : String) (overwrite : Bool)

/-- One call. -/
def step (root : Bool) (s : State) : Ev → State
  | .msg l => message l s
  | .dir d w => setDir root d w s

/-- A program: import, then calls. -/
def run (root : Bool) (files : String → Option (List Line)) (es : List Ev) : State :=
  es.foldl (step root) (setLoggers root (fresh files))

end Verif.Log
