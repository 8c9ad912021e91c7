import Verif.Model.Text
/-!
# Model of the file logger

Source: /repo/src/utils/logger/file.rs and mod.rs.

The files are the log file and its backups, which are numbered by their suffix. Nobody else touches them. A file
operation may fail; the caller then panics, which aborts the process (`panic = "abort"`, Cargo.toml:64). `w` is the width
of `usize` in bits; the release profile has no overflow checks, so `rotations - 1` wraps. The sizes of files and messages
do not overflow `usize`. The text of the time and of the message are parameters.
-/
namespace Verif.Log

/-- `enum Severity` (mod.rs:56-61), with the derived order. -/
inductive Severity where
  | debug
  | info
  | warn
  | error
deriving DecidableEq, Repr

/-- The discriminants (mod.rs:57-60). -/
def Severity.rank : Severity → Nat
  | .debug => 0
  | .info => 1
  | .warn => 2
  | .error => 3

/-- The log file and its backups `path.N` (file.rs:58-88). -/
structure Files where
  main : Option Bytes
  backup : Nat → Option Bytes

/-- `struct InternalFileLogger` (file.rs:29-36) with the files. -/
structure Logger where
  level : Severity
  files : Files
  written : Nat
  limit : Nat
  rotations : Nat

/-- A function changed at one place (bookkeeping of the model for file.rs:58-88). -/
def update (b : Nat → Option Bytes) (k : Nat) (v : Option Bytes) : Nat → Option Bytes := fun i => if i = k then v else b i

/-- One round of the loop of `rotate` (file.rs:59-73): `fs::rename` replaces the target. -/
def moveBackup (b : Nat → Option Bytes) (source target : Nat) : Nat → Option Bytes :=
  match b source with
  | some data => update (update b source none) target (some data)
  | none => b

/-- The rounds of the loop of `rotate` from `i` on, `n` of them (file.rs:59-73). -/
def rotateLoop (w rotations : Nat) : Nat → Nat → (Nat → Option Bytes) → (Nat → Option Bytes)
  | 0, _, b => b
  | n + 1, i, b =>
    rotateLoop w rotations n (i + 1)
      (moveBackup b ((2 ^ w + rotations - i - 1) % 2 ^ w) ((2 ^ w + rotations - i) % 2 ^ w))

/-- The number of rounds: `0..self.rotations - 1` (file.rs:59). -/
def rotateRounds (w rotations : Nat) : Nat := (2 ^ w + rotations - 1) % 2 ^ w

/-- `InternalFileLogger::rotate` (file.rs:58-89). -/
def Logger.rotate (w : Nat) (l : Logger) : Logger :=
  let backup := rotateLoop w l.rotations (rotateRounds w l.rotations) 0 l.files.backup
  let backup := if l.rotations > 0 then update backup 1 l.files.main else backup
  { l with files := ⟨some [], backup⟩, written := 0 }

/-- `InternalFileLogger::write` (file.rs:45-55). -/
def Logger.write (w : Nat) (l : Logger) (data : Bytes) : Logger :=
  let l := if l.written + data.length > l.limit then l.rotate w else l
  { l with files := { l.files with main := some (l.files.main.getD [] ++ data) }, written := l.written + data.length }

/-- The name of a severity (file.rs:96-101), padded to seven characters (`{:<7}`, file.rs:105). -/
def Severity.name : Severity → Bytes
  | .debug => asc "DEBUG  "
  | .info => asc "INFO   "
  | .warn => asc "WARNING"
  | .error => asc "ERROR  "

/-- A message (file.rs:93-110). -/
structure Msg where
  time : Bytes
  severity : Severity
  file : Bytes
  line : Bytes
  text : Bytes
deriving DecidableEq, Repr

/-- The line of a message (file.rs:104-107). -/
def Msg.bytes (m : Msg) : Bytes :=
  m.time ++ asc " " ++ m.severity.name ++ asc " [" ++ m.file ++ asc ":" ++ m.line ++ asc "] " ++ m.text ++ asc "\n"

/-- `InternalFileLogger::log` (file.rs:93-110); `none` is a panic. `io` tells whether the file operations succeed. -/
def Logger.log (w : Nat) (l : Logger) (m : Msg) (io : Bool) : Option Logger :=
  if m.severity.rank ≥ l.level.rank then
    if io then some (l.write w m.bytes) else none
  else some l

/-- `FileLogger::new` (file.rs:130-157), if the file can be opened. -/
def Logger.new (files : Files) (limit rotations : Nat) : Logger :=
  ⟨.info, { files with main := some (files.main.getD []) }, (files.main.getD []).length, limit, rotations⟩

/-- A call of the logger (file.rs:93-119). -/
inductive Call where
  | log (m : Msg) (io : Bool)
  | setLevel (s : Severity)
deriving DecidableEq, Repr

/-- One call (file.rs:93-119, 160-171). -/
def Logger.call (w : Nat) (l : Logger) : Call → Option Logger
  | .log m io => l.log w m io
  | .setLevel s => some { l with level := s }

/-- A sequence of calls. The mutex makes calls of several clones a sequence (file.rs:122-125, 159-171). -/
def Logger.run (w : Nat) (l : Logger) : List Call → Option Logger
  | [] => some l
  | c :: cs =>
    match l.call w c with
    | some l => l.run w cs
    | none => none

end Verif.Log
