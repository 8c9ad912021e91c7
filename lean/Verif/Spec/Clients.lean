import Verif.Model.Clients
import Verif.Spec.Config
import Verif.Spec.Lock
/-!
# Specification of several clients on the same files

What is seen of the processes: which of them run and with what in their memory, what happened to the lock, and which writes
reached the configuration file.
-/
namespace Verif.Spec.Clients
open Verif Verif.SvcTable Verif.Config Verif.Clients

/-- The process `p` is a running client with this memory. -/
def Up (s : Clients.Sys) (p : Nat) (m : Mem) : Prop := s.stage p = some (.up m)

/-- What happened to the lock. -/
def locks : List Ev → List Lock.Ev
  | [] => []
  | .lock e :: l => e :: locks l
  | .write .. :: l => locks l

/-- The writes that reached the configuration file, in order. -/
def reached : List Ev → List Save
  | [] => []
  | .write _ .config data o :: l => if o = .crashBefore then reached l else ⟨data, o⟩ :: reached l
  | _ :: l => reached l

/-- The same for a single client. -/
def reached1 (l : List Save) : List Save := l.filter (fun s => s.out ≠ .crashBefore)

/-- The running client of a sequential history has this memory. -/
def Has (w : World) (m : Mem) : Prop :=
  ∃ c, w.proc = some c ∧ c.version = m.version ∧ c.uuid = m.uuid ∧ c.passwd = m.passwd ∧ c.default = m.default ∧
    c.flashFriendly = m.flashFriendly ∧ w.heap[c.cell]? = some m.table

/-- The identity of a client. -/
def idOf (m : Mem) : Bytes × Bytes := (m.uuid, m.passwd)

/-- The skeleton file can be read, and a process that cannot write it does not go on. -/
def SkeletonWorks : Clients.Op → Prop
  | .readSkeleton _ _ readable => readable = true
  | .writeSkeleton _ o => o ≠ .notCreated ∧ ∀ n, o ≠ .short n
  | _ => True

/-- A start of the process `p` in which nothing fails. -/
def startSteps (p : Nat) (uuid passwd : Bytes) : List Clients.Op :=
  [.readSkeleton p 0 true, .readConfig p true uuid passwd, .writeSkeleton p .ok, .writeIdentity p .ok, .save p [] false .ok]

/-- The identity of the process `p`, if it is a running client. -/
def identityOf (s : Clients.Sys) (p : Nat) : Option (Bytes × Bytes) :=
  match s.stage p with
  | some (.up m) => some (idOf m)
  | _ => none

end Verif.Spec.Clients
