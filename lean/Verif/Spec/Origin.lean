import Verif.Spec.Naming
/-!
# Vocabulary for where the services of a client come from
-/
namespace Verif.Spec.Origin
open Verif Verif.SvcTable

/-- This operation gave the client the service: as a configured service when it was started, or as a service
found by a scan. -/
def GivenBy (s : Service) : Config.Op → Prop
  | .start a => s ∈ a.services
  | .update services _ _ => ∃ now, (now, s) ∈ services
  | _ => False

/-- The service is described in a configuration file. -/
def InFile (E : Config.Env) (file : Option Bytes) (s : Service) : Prop :=
  ∃ data l tj j, file = some data ∧ E.parse data = some (.obj l) ∧ Json.field l (asc "svc_table") = some tj ∧
    j ∈ Spec.SvcTable.entries tj ∧ Spec.SvcTable.serviceOf E.addr j = some s

/-- Somebody else than the server told the client about the service: whoever configured or started it, the
files it was installed with, or a scan of the network. -/
def Given (E : Config.Env) (w0 : Config.World) (ops : List Config.Op) (s : Service) : Prop :=
  (∃ op ∈ ops, GivenBy s op) ∨ InFile E w0.fs.config s ∨ InFile E w0.fs.skeleton s

/-- A state of any of the service tables the client had during a history, also in the middle of an update. -/
def Ever (E : Config.Env) (S : Config.Setup) (w : Config.World) (ops : List Config.Op) (t : Table) : Prop :=
  ∃ cell, Spec.Naming.DuringOf E S w ops cell t

end Verif.Spec.Origin
