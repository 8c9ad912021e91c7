import Verif.Spec.Naming
import Verif.Spec.SessionManager
/-!
# Vocabulary for the way of a service from a scan to the server
-/
namespace Verif.Spec.Found
open Verif Verif.Control Verif.SvcTable Verif.Client

/-- Among the services of a scan this is the last one with its identity (type, device, port and path). -/
def Latest (l : List (Int64 × Service)) (seen : Int64) (s : Service) : Prop :=
  ∃ a b, l = a ++ (seen, s) :: b ∧ ∀ p ∈ b, p.2.toIdentifier ≠ s.toIdentifier

/-- The visible services, and the version that is remembered with them, were read from the same state of the
table. -/
def Together (t : Table) (e : Env) : Prop := e.visible = t.visible ∧ e.versionAfter = t.visVersion

/-- According to the last message about services (REGISTER or UPDATE) the service `s` has the id `i`. -/
def Listed (es : List NEv) (i : UInt16) (s : Service) : Prop :=
  ∃ t, Spec.Client.announced es = some t ∧ ⟨i, s⟩ ∈ SimpleTable.elems t

/-- No session with this id is open. -/
def Free (es : List NEv) (sid : UInt32) : Prop :=
  Spec.SessionManager.after sid false (Spec.Client.mgrEvents es) = some false

/-- The message asks for a session `sid` with the service `i`. -/
def Connect (m : Wire.Message) (i : UInt16) (sid : UInt32) : Prop :=
  m.header.service = 0 ∧ m.payload.length = 10 ∧ field m.payload 2 2 = 0xd ∧
    field m.payload 4 2 = i.toNat ∧ field m.payload 6 4 = sid.toNat

end Verif.Spec.Found
