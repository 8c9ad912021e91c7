import Verif.Spec.Client
import Verif.Spec.Config
/-!
# Vocabulary for the meaning of service ids

What the server is told about ids, which connections to services are opened for them, and which states of
the service table a connection can have read.
-/
namespace Verif.Spec.Naming
open Verif Verif.Control Verif.SvcTable Verif.Client

/-- The message this event creates for the server lists `s` under the id `i` (REGISTER, UPDATE and
SCAN_REPORT). -/
def Tells (e : NEv) (i : UInt16) (s : Service) : Prop :=
  ∃ at_ m t, e = .ev (.queued at_ m) ∧ ⟨i, s⟩ ∈ SimpleTable.elems t ∧
    ((∃ uuid key mac w f info, m.body = .register uuid key mac w f info t) ∨ m.body = .update t ∨
      ∃ req hosts, m.body = .scanReport req hosts t)

/-- The event opens a connection to this address, for a session with the service id `i`; the session is
for a service of this type at the device with this MAC address. -/
def Opens (e : NEv) (i : UInt16) (ty : ServiceType) (mac : MacAddr) (a : SocketAddr) : Prop :=
  ∃ sid, e = .ev (.mgr (.opened sid i ty mac a))

/-- The service is of this type, at this device, and has the port of this address. -/
def Fits (s : Service) (ty : ServiceType) (mac : MacAddr) (a : SocketAddr) : Prop :=
  s.svcType = ty ∧ s.mac.getD .zero = mac ∧ s.port = some a.port

/-- Everything that was read from the service table was read from tables in `T`, each lookup possibly from
another one. -/
structure ReadsIn (T : Table → Prop) (e : Env) : Prop where
  table : ∀ i, ∃ t, T t ∧ e.table i = t.get i
  visible : ∃ t, T t ∧ e.visible = t.visible
  getId : ∀ k, ∃ t, T t ∧ t.getId k = some (e.getId k)

/-- The states a table goes through while these operations are made. -/
def Stages (farm : Bytes → UInt64) (t0 : Table) (ops : List TOp) (t : Table) : Prop :=
  ∃ pre post, ops = pre ++ post ∧ t0.run farm pre = some t

/-- The changes made to the table of the running client by an operation. -/
def changesOf : Config.Op → List TOp
  | .update services now _ => Spec.Config.changes services now
  | _ => []

/-- The states the service table of the running client goes through during a history, also in the middle
of an update. -/
def During (E : Config.Env) (S : Config.Setup) (w : Config.World) (ops : List Config.Op) (t : Table) : Prop :=
  ∃ pre op post t0, ops = pre ++ op :: post ∧ Spec.Config.table (w.run E S pre).1 = some t0 ∧
    Stages E.farm t0 (changesOf op) t

/-- The states the table with reference `cell` goes through during a history, as long as the process lives. -/
def DuringOf (E : Config.Env) (S : Config.Setup) (w : Config.World) (ops : List Config.Op) (cell : Nat)
    (t : Table) : Prop :=
  ∃ pre op post c t0, ops = pre ++ op :: post ∧ (w.run E S pre).1.proc = some c ∧
    (w.run E S pre).1.heap[cell]? = some t0 ∧
    (t = t0 ∨ (c.cell = cell ∧ Stages E.farm t0 (changesOf op) t))

/-- The process is not started anew. -/
def NoStart : Config.Op → Prop
  | .start _ => False
  | _ => True

/-- The client is not told to forget its services. -/
def NoReset : Config.Op → Prop
  | .reset _ => False
  | _ => True

/-- The configuration file can be read whenever the client is started. -/
def ConfigReadable : Config.Op → Prop
  | .start a => a.readConfig = true
  | _ => True

/-- No update ends the running client (it does if the table gets full). -/
def UpdatesFit (E : Config.Env) (S : Config.Setup) (w : Config.World) (ops : List Config.Op) : Prop :=
  ∀ pre services now o post, ops = pre ++ .update services now o :: post →
    (w.run E S pre).1.proc ≠ none → (w.run E S (pre ++ [.update services now o])).1.proc ≠ none

/-- A history in which saving works, the configuration file can be read, the services are not reset and the
service table does not get full. -/
structure Steady (E : Config.Env) (S : Config.Setup) (w : Config.World) (ops : List Config.Op) : Prop where
  sane : ∀ op ∈ ops, Spec.Config.Sane op
  saves : ∀ op ∈ ops, Spec.Config.SavesWork op
  noReset : ∀ op ∈ ops, NoReset op
  readable : ∀ op ∈ ops, ConfigReadable op
  fit : UpdatesFit E S w ops

end Verif.Spec.Naming
