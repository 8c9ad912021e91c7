import Verif.Model.Session
/-!
# What an observer of a session sees

Projections of a history of observations (`Session.Obs`); the session properties are stated with
these only.
-/
namespace Verif.Spec.Session
open Verif.Session

/-- Payload bytes accepted from the server. -/
def accepted (os : List Obs) : Bytes := os.flatMap (fun | .accepted d => d | _ => [])

/-- Bytes written to the service. -/
def wrote (os : List Obs) : Bytes := os.flatMap (fun | .wrote d => d | _ => [])

/-- Bytes read from the service. -/
def reads (os : List Obs) : Bytes := os.flatMap (fun | .read d => d | _ => [])

/-- Payload bytes of the data messages sent to the server. -/
def sentData (os : List Obs) : Bytes := os.flatMap (fun | .sent (.data m) => m.payload | _ => [])

/-- Sum of the lengths of the DATA_ACK messages received from the server. -/
def gotAcks (os : List Obs) : Nat := (os.map (fun | .gotAck n => n | _ => 0)).sum

/-- The length field of a DATA_ACK message. -/
def ackLength (m : Control.ControlMessage) : Nat :=
  match m.body with
  | .dataAck _ l => l.toNat
  | _ => 0

/-- Sum of the lengths of the DATA_ACK messages sent to the server. -/
def sentAcks (os : List Obs) : Nat := (os.map (fun | .sent (.ack m) => ackLength m | _ => 0)).sum

/-- The reasons the session was given to end, in order (`none`: a clean end). -/
def causes (os : List Obs) : List (Option ConnErr) :=
  os.filterMap (fun | .cause e => some e | _ => none)

/-- The ends reported to the session manager, in order (`none`: a clean end). -/
def ends (os : List Obs) : List (Option ConnErr) :=
  os.filterMap (fun | .failed e => some (some e) | .finished => some none | _ => none)

end Verif.Spec.Session
