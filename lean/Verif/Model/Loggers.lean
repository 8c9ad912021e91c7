import Verif.Model.Logger
import Verif.Model.Exports
/-!
# Model of the loggers other than the file logger, and of their clones

Source: /repo/src/utils/logger/stderr.rs, syslog.rs, mod.rs and /repo/src/exports/logger.rs.

A handle is a `BoxLogger` (or its pointer in C). Levels are kept in cells: a clone of the callback logger shares the cell of
its original (`Arc<Mutex<..>>`), a clone of another one has its own. A panic aborts the process (`panic = "abort"`).
-/
namespace Verif.Loggers
open Verif Verif.Log

/-- The kinds of loggers (stderr.rs:23-27, syslog.rs:46-48, exports/logger.rs:44-48, 87-89, mod.rs:155-157). -/
inductive Kind where
  | stderr (pretty : Bool)
  | syslog
  | callback
  | dummy
deriving DecidableEq

/-- What loggers do: text written to the standard error, a call of `syslog` with its priority and the memory of the text, a call
of the function of the application with the memory of the file name, the line, the severity and the memory of the message
(stderr.rs:68-84, syslog.rs:77-86, exports/logger.rs:66-77). -/
inductive Event where
  | stderr (text : Bytes)
  | syslog (priority : Nat) (memory : Bytes)
  | callback (file : Bytes) (line : Bytes) (severity : Nat) (msg : Bytes)
deriving DecidableEq

/-- The levels, and for each handle its kind and cell (mod.rs:118-137). -/
structure Sys where
  cells : List Severity
  handles : List (Kind × Nat)

/-- The color of a severity (stderr.rs:61-66). -/
def color : Severity → Bytes
  | .debug => asc "1;30"
  | .info => asc "0;37"
  | .warn => asc "0;33"
  | .error => asc "0;31"

/-- The line of `StderrLogger` (stderr.rs:69-83). -/
def stderrLine (pretty : Bool) (m : Msg) : Bytes :=
  if pretty then
    [0x1b] ++ asc "[" ++ color m.severity ++ asc "m" ++ m.time ++ asc " " ++ m.severity.name ++ asc " [" ++ m.file ++ asc ":"
      ++ m.line ++ asc "] " ++ m.text ++ [0x1b] ++ asc "[m" ++ asc "\n"
  else m.bytes

/-- The priority of a severity (syslog.rs:31-34, 79-84). -/
def priority : Severity → Nat
  | .debug => 7
  | .info => 6
  | .warn => 4
  | .error => 3

/-- `replace('\0', "\\0")` (syslog.rs:73). -/
def escape (s : Bytes) : Bytes := s.flatMap fun b => if b = 0 then [0x5c, 0x30] else [b]

/-- `Logger::log` of a handle (stderr.rs:51-85, syslog.rs:70-87, exports/logger.rs:61-78, 101-103, mod.rs:140-142, 168). `none` is a panic. `io`
tells whether the standard error can be written. -/
def logWith (k : Kind) (level : Severity) (m : Msg) (io : Bool) : Option (List Event) :=
  match k with
  | .stderr pretty =>
    if m.severity.rank ≥ level.rank then if io then some [.stderr (stderrLine pretty m)] else none
    else some []
  | .syslog =>
    match Exports.cstring (escape (asc "[" ++ m.file ++ asc ":" ++ m.line ++ asc "] " ++ m.text)) with
    | none => none
    | some text => if m.severity.rank ≥ level.rank then some [.syslog (priority m.severity) text] else some []
  | .callback =>
    if m.severity.rank < level.rank then some []
    else
      match Exports.cstring m.file, Exports.cstring m.text with
      | some file, some msg => some [.callback file m.line m.severity.rank msg]
      | _, _ => none
  | .dummy => some []

/-- The level of a new logger (stderr.rs:33, syslog.rs:64, exports/logger.rs:56, mod.rs:162). -/
def initial : Kind → Severity
  | .dummy => .debug
  | _ => .info

/-- What is done with loggers (mod.rs:69-100, 131-151; exports/logger.rs:105-108, 120-165). -/
inductive Op where
  | new (k : Kind)
  | clone (h : Nat)
  | setLevel (h : Nat) (s : Severity)
  | log (h : Nat) (m : Msg) (io : Bool)
deriving DecidableEq

/-- A clone (stderr.rs:40-48, syslog.rs:45, exports/logger.rs:86-89, mod.rs:131-137, 154): only the callback logger shares its context. -/
def cloneOf (s : Sys) (k : Kind) (cell : Nat) : Sys :=
  match k with
  | .callback => { s with handles := s.handles ++ [(k, cell)] }
  | _ => ⟨s.cells ++ [s.cells[cell]?.getD .info], s.handles ++ [(k, s.cells.length)]⟩

/-- One step; `none` is a panic. Handles that do not exist are ignored (a C program must not use them). (mod.rs:131-177.) -/
def Sys.step (s : Sys) : Op → Option (Sys × List Event)
  | .new k => some (⟨s.cells ++ [initial k], s.handles ++ [(k, s.cells.length)]⟩, [])
  | .clone h =>
    match s.handles[h]? with
    | some (k, cell) => some (cloneOf s k cell, [])
    | none => some (s, [])
  | .setLevel h v =>
    match s.handles[h]? with
    | some (_, cell) => some ({ s with cells := s.cells.set cell v }, [])
    | none => some (s, [])
  | .log h m io =>
    match s.handles[h]? with
    | some (k, cell) => (logWith k (s.cells[cell]?.getD .info) m io).map fun e => (s, e)
    | none => some (s, [])

/-- A history, and what is done in it (mod.rs:131-177); `none`: the process was aborted. -/
def Sys.run (s : Sys) : List Op → Option (Sys × List Event)
  | [] => some (s, [])
  | op :: ops =>
    match s.step op with
    | none => none
    | some (s, e) => (s.run ops).map fun x => (x.1, e ++ x.2)

end Verif.Loggers
