import Verif.Model.Logger
/-!
# What a log contains
-/
namespace Verif.Spec.Log
open Verif Verif.Log

/-- The order of the severities. -/
def importance : Severity → Nat
  | .debug => 0
  | .info => 1
  | .warn => 2
  | .error => 3

/-- The name of a severity in a log. -/
def label : Severity → Bytes
  | .debug => asc "DEBUG  "
  | .info => asc "INFO   "
  | .warn => asc "WARNING"
  | .error => asc "ERROR  "

/-- A line of a log: the time, the severity, the place and the text, and the end of the line. -/
def line (m : Msg) : Bytes :=
  m.time ++ [0x20] ++ label m.severity ++ [0x20, 0x5b] ++ m.file ++ [0x3a] ++ m.line ++ [0x5d, 0x20] ++ m.text ++ [0x0a]

/-- The lines of the messages a logger must write: those with at least the severity of the level in force. -/
def due : Severity → List Call → List Bytes
  | _, [] => []
  | level, .log m _ :: cs => if importance level ≤ importance m.severity then line m :: due level cs else due level cs
  | _, .setLevel s :: cs => due s cs

/-- The contents of the backups `n`, ..., 2, 1, the oldest first. -/
def backups (f : Files) : Nat → Bytes
  | 0 => []
  | n + 1 => (f.backup (n + 1)).getD [] ++ backups f n

/-- All that can be read from a log with `n` backups: the backups, the oldest first, and then the log file. -/
def contents (f : Files) (n : Nat) : Bytes := backups f n ++ f.main.getD []

/-- The contents of one of the files of a log with `n` backups. -/
def IsFile (f : Files) (n : Nat) (d : Bytes) : Prop := f.main = some d ∨ ∃ k, 1 ≤ k ∧ k ≤ n ∧ f.backup k = some d

/-- The message of a call must be written although the file operations fail. -/
def Fails : Severity → List Call → Prop
  | _, [] => False
  | level, .log m io :: cs => (importance level ≤ importance m.severity ∧ io = false) ∨ Fails level cs
  | _, .setLevel s :: cs => Fails s cs

end Verif.Spec.Log
