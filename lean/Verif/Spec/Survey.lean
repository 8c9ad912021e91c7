import Verif.Model.Survey
import Verif.Spec.LocalScan
import Verif.Spec.Origin
/-!
# Vocabulary for scans and the service table
-/
namespace Verif.Spec.Survey
open Verif Verif.Survey

/-- The paths are texts. -/
def Texts (v : Survey) : Prop :=
  (∀ p ∈ v.rtspPaths, Utf8.valid p = true) ∧ ∀ p ∈ v.mjpegPaths, Utf8.valid p = true

/-- All the services the client is told about while it is running come from these scans. -/
def OnlyBy (w : Nat) (E : Discovery.Env) (surveys : List Survey) (ops : List Config.Op) : Prop :=
  ∀ op ∈ ops, (∃ l now o, op = .update l now o) → ∃ v ∈ surveys, Texts v ∧ ∃ r, v.Ends w E r op

/-- The service was configured: given when the client was started, or described in a file it was installed with. -/
def Configured (E : Config.Env) (w0 : Config.World) (ops : List Config.Op) (s : Service) : Prop :=
  (∃ a, .start a ∈ ops ∧ s ∈ a.services) ∨ Spec.Origin.InFile E w0.fs.config s ∨ Spec.Origin.InFile E w0.fs.skeleton s

/-- In this scan a candidate port has answered at the address and device, on an interface that may be scanned. -/
def Heard (v : Survey) (mac : MacAddr) (a : SocketAddr) : Prop :=
  Spec.LocalScan.Candidate a.port ∧
    ∃ x ∈ v.ifaces, Spec.LocalScan.Permitted v.whitelist x ∧ Spec.LocalScan.PortAnswered x mac a

/-- The configured services are values of the public type, and no locked one has an empty path; one scan finds less
than 4 billion services. Nothing is said about the services a scan finds. -/
def Usual : Config.Op → Prop
  | .start a => ∀ s ∈ a.services, s.Constructible ∧ ¬ Spec.SvcTable.EmptyLockedPath s
  | .update services _ _ => services.length + 65536 < 4294967296
  | _ => True

end Verif.Spec.Survey
