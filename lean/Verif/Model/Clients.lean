import Verif.Model.Config
import Verif.Model.Lock
/-!
# Model of several client processes that use the same files

Source: `ConfigParser::build` (/repo/src/config.rs:433-478), which takes the lock before anything else,
`ConfigBuilder::build` (253-324), `DefaultStorage::builder` and `load_configuration` (/repo/src/storage.rs:189-233, 251-326),
and the changes of a running client (config.rs:1073-1112).

Each process has its own memory; the files and the lock are shared. Every access to a file is a single step, so the
accesses of different processes interleave in every way; a process may end between any two of them, and in the middle of a
write (`Config.Out`). The mac address, the path lists and the log, between the accesses of a start, are left out; an error
there ends the process, which is the step `exit`. The clock is read once in a start (as in `Model/Config`).
-/
namespace Verif.Clients
open Verif Verif.SvcTable Verif.Config

/-- The memory of a running client: `struct Config` (config.rs:931-951), the parts of `Config.Cfg`, with the service table
itself. -/
structure Mem where
  version : UInt64
  uuid : Bytes
  passwd : Bytes
  table : Table
  default : Table
  flashFriendly : Bool

/-- How far a process is with its start (storage.rs:251-326, config.rs:253-324). -/
inductive Stage where
  /-- the storage builder exists; no file was accessed (config.rs:436-438) -/
  | fresh
  /-- the skeleton was read (storage.rs:255-265) -/
  | skeleton (now : Int64) (skel : Option PConfig)
  /-- the configuration was read or created (storage.rs:268-285); `exists`: there was a skeleton -/
  | loaded (now : Int64) (skelExists : Bool) (c : PConfig)
  /-- the skeleton was written if there was none (storage.rs:288-308) -/
  | skeletonDone (now : Int64) (c : PConfig)
  /-- `load_configuration` returned (storage.rs:310-325) -/
  | identityDone (now : Int64) (c : PConfig)
  /-- `build` returned: the client runs (config.rs:318-323) -/
  | up (m : Mem)

/-- The lock file, the other files, and the processes that have a storage (storage.rs:175-185). -/
structure Sys where
  lock : Lock.Sys
  fs : Files
  stage : Nat → Option Stage

/-- Before the first start (config.rs:433). -/
def Sys.new (lockFile : Option Bytes) (fs : Files) : Sys := ⟨Lock.Sys.new lockFile, fs, fun _ => none⟩

/-- The files that are written (storage.rs:175-185). -/
inductive Which where
  | config | skeleton | identity
deriving DecidableEq

/-- What can happen (config.rs:253-324, 433-478, 1073-1112; storage.rs:189-326). -/
inductive Op where
  /-- a system call on the lock file (storage.rs:198-218) -/
  | lock (o : Lock.Op)
  /-- no lock file was given: there is a storage at once (storage.rs:198-200) -/
  | enter (p : Nat)
  /-- the process ends, or `build` returns an error -/
  | exit (p : Nat)
  | readSkeleton (p : Nat) (now : Int64) (readable : Bool)
  /-- with the UUIDs drawn if a new configuration is created -/
  | readConfig (p : Nat) (readable : Bool) (freshUuid freshPasswd : Bytes)
  | writeSkeleton (p : Nat) (o : Out)
  | writeIdentity (p : Nat) (o : Out)
  /-- the end of `build`, with the static services and the mode -/
  | save (p : Nat) (services : List Service) (flashFriendly : Bool) (o : Out)
  | update (p : Nat) (services : List (Int64 × Service)) (now : Int64) (o : Out)
  | reset (p : Nat) (o : Out)

/-- What can be observed: what happens to the lock, and each attempt to write a file with how it ended
(storage.rs:189-233, 448-469). -/
inductive Ev where
  | lock (e : Lock.Ev)
  | write (p : Nat) (f : Which) (data : Bytes) (o : Out)

/-- Does writing return an error? (storage.rs:448-457) -/
def failed : Out → Bool
  | .notCreated | .short _ => true
  | _ => false

/-- Set the stage of a process (bookkeeping of the model for config.rs:253-324). -/
def Sys.set (s : Sys) (p : Nat) (x : Option Stage) : Sys := { s with stage := fun q => if q = p then x else s.stage q }

/-- The storage of a process is dropped, and with it the lock (storage.rs:175-185). -/
def Sys.finish (text : Nat → Bytes) (s : Sys) (p : Nat) : Sys × List Ev :=
  ({ s.set p none with lock := (s.lock.step text (.exit p)).1 }, (s.lock.step text (.exit p)).2.map .lock)

/-- `Config::save` of a running client (config.rs:1142-1162), with the process ending if it is killed in the middle. -/
def Sys.save (E : Env) (text : Nat → Bytes) (s : Sys) (p : Nat) (m : Mem) (o : Out) : Sys × List Ev :=
  let data := E.render (PConfig.toJson E ⟨m.uuid, m.passwd, m.version, m.table⟩)
  let (f, st) := writeFile s.fs.config data o
  let s := { s with fs := { s.fs with config := f } }
  if st = .crashed then
    let (s, evs) := s.finish text p
    (s, .write p .config data o :: evs)
  else (s.set p (some (.up m)), [.write p .config data o])

/-- One step. `useLock`: a lock file is given (config.rs:436). What a process does not do next has no effect. -/
def Sys.step (E : Env) (S : Setup) (text : Nat → Bytes) (useLock : Bool) (s : Sys) : Op → Sys × List Ev
  | .lock o =>
    if useLock then
      let (l, evs) := s.lock.step text o
      ({ s with
          lock := l
          stage := fun q => if .started q ∈ evs then some .fresh else if .ended q ∈ evs then none else s.stage q },
        evs.map .lock)
    else (s, [])
  | .enter p =>
    if useLock then (s, [])
    else match s.stage p with
      | none => (s.set p (some .fresh), [])
      | some _ => (s, [])
  | .exit p => s.finish text p
  | .readSkeleton p now readable => match s.stage p with
    | some .fresh =>
      match (if S.skeleton then loadFile E now s.fs.skeleton readable else .ok none) with
      | .ok skel => (s.set p (some (.skeleton now skel)), [])
      | _ => s.finish text p
    | _ => (s, [])
  | .readConfig p readable freshUuid freshPasswd => match s.stage p with
    | some (.skeleton now skel) =>
      match loadFile E now s.fs.config readable with
      | .ok config =>
        (s.set p (some (.loaded now skel.isSome
          ((config.or skel).getD (PConfig.new now freshUuid freshPasswd)))), [])
      | _ => s.finish text p
    | _ => (s, [])
  | .writeSkeleton p o => match s.stage p with
    | some (.loaded now skelExists c) =>
      if S.skeleton ∧ skelExists = false then
        let data := E.render ((c.toSkeleton now).toJson E)
        let (f, st) := writeFile s.fs.skeleton data o
        let s := { s with fs := { s.fs with skeleton := f } }
        if st = .crashed then
          let (s, evs) := s.finish text p
          (s, .write p .skeleton data o :: evs)
        else (s.set p (some (.skeletonDone now c)), [.write p .skeleton data o])
      else (s.set p (some (.skeletonDone now c)), [])
    | _ => (s, [])
  | .writeIdentity p o => match s.stage p with
    | some (.skeletonDone now c) =>
      if S.identity then
        let data := E.render (identityJson E c)
        let (f, st) := writeFile s.fs.identity data o
        let s := { s with fs := { s.fs with identity := f } }
        if st = .crashed then
          let (s, evs) := s.finish text p
          (s, .write p .identity data o :: evs)
        else (s.set p (some (.identityDone now c)), [.write p .identity data o])
      else (s.set p (some (.identityDone now c)), [])
    | _ => (s, [])
  | .save p services flashFriendly o => match s.stage p with
    | some (.identityDone now c) =>
      match c.table.run E.farm (services.map (.addStatic now)) with
      | none => s.finish text p
      | some t =>
        let (s, evs) := s.save E text p ⟨c.version, c.uuid, c.passwd, t, t, flashFriendly⟩ o
        -- an error of saving is an error of `build`
        if failed o then
          let (s, more) := s.finish text p
          (s, evs ++ more)
        else (s, evs)
    | _ => (s, [])
  | .update p services now o => match s.stage p with
    | some (.up m) =>
      match m.table.run E.farm (services.map (fun s => .add s.1 s.2) ++ [.updateActive now]) with
      | none => s.finish text p
      | some t =>
        if t.version = m.table.version ∧ (m.flashFriendly ∨ t.visVersion = m.table.visVersion) then
          (s.set p (some (.up { m with table := t })), [])
        else s.save E text p { m with version := m.version + 1, table := t } o
    | _ => (s, [])
  | .reset p o => match s.stage p with
    | some (.up m) => s.save E text p { m with version := m.version + 1, table := m.default } o
    | _ => (s, [])

/-- A sequence of steps of all processes (config.rs:253-324, 433-478). -/
def Sys.run (E : Env) (S : Setup) (text : Nat → Bytes) (useLock : Bool) (s : Sys) : List Op → Sys × List Ev
  | [] => (s, [])
  | op :: ops =>
    let (s, a) := s.step E S text useLock op
    let (s, b) := s.run E S text useLock ops
    (s, a ++ b)

end Verif.Clients
