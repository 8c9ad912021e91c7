import Verif.Model.Text
/-!
# Model of the lock file

Source: `DefaultStorage::builder` of /repo/src/storage.rs (lines 189-233) and the field `_lock_file` of `DefaultStorage`
(175-185), which keeps the file open while the client runs.

Several processes use the same lock file. The system calls of a process are single steps, so those of different processes
interleave in every way; a process may end at any moment, which closes its file. The file system is: the contents of the
file, which process holds the lock (`flock` on the open file), and the position of each process in its open file. Nobody
else touches the file. `text p` is the decimal number of the process `p`.
-/
namespace Verif.Lock

/-- How far a process is (storage.rs:198-218). -/
inductive Phase where
  /-- not started, or ended -/
  | idle
  /-- `File::create` succeeded (line 201) -/
  | opened
  /-- `try_lock_exclusive` succeeded (line 203) -/
  | locked
  /-- the number is written: the first piece of `write_fmt` (line 204) -/
  | numbered
  /-- the end of line is written: the second piece of `write_fmt` (line 204) -/
  | written
  /-- `flush` and `sync_all` succeeded (lines 205-206): the client runs -/
  | running
  /-- `builder` returned an error (lines 210-217); the file is closed -/
  | refused
deriving DecidableEq, Repr

/-- The lock file and the processes (storage.rs:175-185, 198-218). -/
structure Sys where
  /-- the contents; `none` is a missing file -/
  file : Option Bytes
  owner : Option Nat
  phase : Nat → Phase

/-- Nothing runs, and the file is whatever an earlier run left (storage.rs:189-233). -/
def Sys.new (file : Option Bytes) : Sys := ⟨file, none, fun _ => .idle⟩

/-- Set the phase of a process (bookkeeping of the model for storage.rs:198-218). -/
def Sys.setPhase (s : Sys) (p : Nat) (x : Phase) : Sys := { s with phase := fun q => if q = p then x else s.phase q }

/-- Close the file of a process: a lock it holds is released (storage.rs:201-218; `File` is dropped). -/
def Sys.close (s : Sys) (p : Nat) (x : Phase) : Sys :=
  { s.setPhase p x with owner := if s.owner = some p then none else s.owner }

/-- Write at a position of a file; a gap is filled with zeros (`write` of the operating system). -/
def writeAt (data : Bytes) (pos : Nat) (file : Bytes) : Bytes :=
  (file ++ List.replicate (pos - file.length) 0).take pos ++ data ++ file.drop (pos + data.length)

/-- The next system call of a process, and its outcome (storage.rs:201-206). -/
inductive Op where
  /-- `File::create`, which empties an existing file -/
  | create (p : Nat) (ok : Bool)
  /-- `try_lock_exclusive`; it fails if another process holds the lock; `ok = false`: it fails for another reason -/
  | lock (p : Nat) (ok : Bool)
  /-- the number is written; `some n`: an error after `n` bytes -/
  | number (p : Nat) (fail : Option Nat)
  /-- the end of line is written -/
  | newline (p : Nat) (ok : Bool)
  /-- `flush` and `sync_all` -/
  | sync (p : Nat) (ok : Bool)
  /-- the process ends, in whatever way -/
  | exit (p : Nat)
deriving DecidableEq, Repr

/-- What can be observed: a client runs, a start is refused, a process ends (storage.rs:189-233, 210-217). -/
inductive Ev where
  | started (p : Nat)
  | refused (p : Nat)
  | ended (p : Nat)
deriving DecidableEq, Repr

/-- One system call (storage.rs:198-218). A call that the process does not make next has no effect. -/
def Sys.step (text : Nat → Bytes) (s : Sys) : Op → Sys × List Ev
  | .create p ok =>
    if s.phase p = .idle then
      if ok then ({ s with file := some [] }.setPhase p .opened, []) else (s.setPhase p .refused, [.refused p])
    else (s, [])
  | .lock p ok =>
    if s.phase p = .opened then
      if ok ∧ s.owner = none then ({ s with owner := some p }.setPhase p .locked, [])
      else (s.close p .refused, [.refused p])
    else (s, [])
  | .number p fail =>
    if s.phase p = .locked then
      match fail with
      | none => ({ s with file := s.file.map (writeAt (text p) 0) }.setPhase p .numbered, [])
      | some n => ({ s with file := s.file.map (writeAt ((text p).take n) 0) }.close p .refused, [.refused p])
    else (s, [])
  | .newline p ok =>
    if s.phase p = .numbered then
      if ok then ({ s with file := s.file.map (writeAt [10] (text p).length) }.setPhase p .written, [])
      else (s.close p .refused, [.refused p])
    else (s, [])
  | .sync p ok =>
    if s.phase p = .written then
      if ok then (s.setPhase p .running, [.started p]) else (s.close p .refused, [.refused p])
    else (s, [])
  | .exit p => if s.phase p = .idle then (s, []) else (s.close p .idle, [.ended p])

/-- A sequence of system calls of all processes (storage.rs:198-218). -/
def Sys.run (text : Nat → Bytes) (s : Sys) : List Op → Sys × List Ev
  | [] => (s, [])
  | op :: ops =>
    let (s, a) := s.step text op
    let (s, b) := s.run text ops
    (s, a ++ b)

end Verif.Lock
