import Verif.Model.Config
import Verif.Spec.SvcTable
/-!
# Vocabulary for the properties of the configuration and its storage
-/
namespace Verif.Spec.Config
open Verif Verif.SvcTable Verif.Config Verif.Spec.SvcTable

/-- What is assumed about the external crates: text that was written is read back, and a JSON object whose
text is cut short is not a JSON text. -/
structure Faithful (E : Env) : Prop where
  addr : AddrText.Faithful E.addr
  uuid : ∀ u, E.parseUuid (E.formatUuid u) = some u
  json : ∀ j, E.parse (E.render j) = some j
  cut : ∀ l n, n < (E.render (.obj l)).length → E.parse ((E.render (.obj l)).take n) = none

/-- The identity (UUID and password) of the running client. -/
def identity (w : World) : Option (Bytes × Bytes) := w.proc.map (fun c => (c.uuid, c.passwd))

/-- The service table of the running client. -/
def table (w : World) : Option Table := w.proc.bind (fun c => w.heap[c.cell]?)

/-- No configuration can be read from a file: it is missing or damaged. -/
def Unusable (E : Env) (file : Option Bytes) : Prop :=
  ∀ data, file = some data → ∀ j, E.parse data = some j → ∀ now, PConfig.fromJson E now j = .err

/-- A file is missing, damaged, or a configuration that describes no service twice. -/
def Clean (E : Env) (file : Option Bytes) : Prop :=
  ∀ now c, loadFile E now file true = .ok (some c) → Spec.SvcTable.Start E.addr c.table

/-- Before the first start. -/
structure Fresh (E : Env) (w : World) : Prop where
  noProcess : w.proc = none
  config : Clean E w.fs.config
  skeleton : Clean E w.fs.skeleton

/-- The services that are given to the client are values of the public type, and no locked one has an empty
path; one scan finds less than 4 billion services. -/
def Sane : Op → Prop
  | .start a => ∀ s ∈ a.services, s.Constructible ∧ ¬ EmptyLockedPath s
  | .update services _ _ => services.length + 65536 < 4294967296 ∧
      ∀ p ∈ services, p.2.Constructible ∧ ¬ EmptyLockedPath p.2
  | _ => True

/-- The skeleton file can be read whenever the client is started. -/
def SkeletonReadable : Op → Prop
  | .start a => a.readSkeleton = true
  | _ => True

/-- Saving the configuration works. -/
def SavesWork : Op → Prop
  | .start a => a.outConfig = .ok
  | .update _ _ o => o = .ok
  | .reset o => o = .ok
  | .stop => True

/-- The two tables have the same services under the same ids, with the same static flags; and, if
`activity`, discovered services are active in both or none. -/
def Matches (activity : Bool) (t u : Table) : Prop :=
  ∀ i, i ≠ 0 → match saved t i, saved u i with
    | none, none => True
    | some (s, st, _, act), some (s', st', _, act') =>
      s = s' ∧ st = st' ∧ (activity = true → st = false → act = act')
    | _, _ => False

/-- The changes an update makes to a table. -/
def changes (services : List (Int64 × Service)) (now : Int64) : List TOp :=
  services.map (fun s => .add s.1 s.2) ++ [.updateActive now]

end Verif.Spec.Config
