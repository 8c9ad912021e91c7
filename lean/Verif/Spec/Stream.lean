import Verif.Spec.Bytes
import Verif.Model.Client
/-!
# What a server sees of one connection

The messages handed to the transport, and what each may be. Nothing here looks at the state of the client.
-/
namespace Verif.Spec.Stream
open Verif Verif.Client Verif.Session

/-- The messages handed to the transport, in order. -/
def sentBy (es : List NEv) : List Wire.Message := es.filterMap fun | .sent m => some m | _ => none

/-- The bytes a server receives. -/
def wire (es : List NEv) : Bytes := (sentBy es).flatMap Wire.Message.encode

/-- Service, session and payload of a message. -/
def view (m : Wire.Message) : UInt16 × Nat × Bytes := (m.header.service, m.header.session.toNat, m.payload)

/-- The control messages a client may send, by type and length of the whole message: ACK, PING, REGISTER,
UPDATE, HUP, STATUS, SCAN_REPORT and DATA_ACK. CONNECT, REDIRECT, GET_STATUS, RESET_SVC_TABLE, SCAN_NETWORK
and GET_SCAN_REPORT belong to the server. -/
def clientKind : Nat → Nat → Bool
  | 0, n => n = 8
  | 1, n => n = 4
  | 2, n => 79 ≤ n
  | 4, n => 34 ≤ n
  | 5, n => n = 12
  | 9, n => n = 14
  | 11, n => 40 ≤ n
  | 12, n => n = 12
  | _, _ => false

/-- A control message of a client: service 0, session 0, and a type that is the client's to send. -/
def IsControl (m : Wire.Message) : Prop :=
  m.header.service = 0 ∧ m.header.session = 0 ∧ clientKind (field m.payload 2 2) m.payload.length = true

/-- Data of a session: not empty, and under the service and the session number (24 bits) of a session
that was opened before. -/
def IsData (before : List NEv) (m : Wire.Message) : Prop :=
  m.payload ≠ [] ∧ ∃ sid ty mac addr, .ev (.mgr (.opened sid m.header.service ty mac addr)) ∈ before ∧
    m.header.session.toNat = sid.toNat % 2 ^ 24

end Verif.Spec.Stream
