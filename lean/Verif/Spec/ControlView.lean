import Verif.Spec.Control
import Verif.Model.Control
/-!
# What the values of the control model mean in terms of `Spec.Control`
-/
namespace Verif.Spec
open Verif.Control

/-- The meaning of a decoded body. -/
inductive Denotes : Body → Ctl → Prop
  | ack (e : UInt32) : Denotes (.ack e) (.ack e.toNat)
  | connect (svc : UInt16) (s : UInt32) : Denotes (.connect svc s) (.connect svc.toNat s.toNat)
  | dataAck (s l : UInt32) : Denotes (.dataAck s l) (.dataAck s.toNat l.toNat)
  | hup (s e : UInt32) : Denotes (.hup s e) (.hup s.toNat e.toNat)
  | redirect (t : Bytes) (cs : List Char) (h : t = cs.flatMap String.utf8EncodeChar) :
      Denotes (.redirect t) (.redirect cs)
  | empty : Denotes .empty .empty

/-- The record that must appear for a host. -/
def hostRec (h : HostRecord) : HostRec :=
  { flags := h.flags.toNat, mac := macBytes h.mac, ipVersion := ipVersion h.ip, ip := ipNumber h.ip,
    ports := h.ports.map UInt16.toNat }

/-- No path of the table contains a NUL byte and no listed service is the control service. -/
def Clean (t : SimpleTable) : Prop :=
  ∀ e ∈ t.elems, (0 : UInt8) ∉ e.service.path.getD [] ∧ e.service.svcType ≠ .controlProtocol

end Verif.Spec
