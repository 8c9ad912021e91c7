import Verif.Spec.Bytes
import Verif.Model.Client
/-!
# What the server has to ask for

For every effect of a connection: the message of the server that has to come immediately before it.
-/
namespace Verif.Spec.Solicited
open Verif Verif.Client Verif.Session

/-- The last thing that happened is that control message `m` of type `ty` was accepted. -/
def Last (before : List NEv) (ty : Nat) (m : Wire.Message) : Prop :=
  before.getLast? = some (.ev (.got m .ok)) ∧ m.header.service = 0 ∧ field m.payload 2 2 = ty

/-- The last thing that happened is a request of this type and message id. -/
def Request (before : List NEv) (ty : Nat) (id : UInt16) : Prop :=
  ∃ m, Last before ty m ∧ field m.payload 0 2 = id.toNat

/-- What has to be the case for an effect. -/
def Solicited (before : List NEv) : NEv → Prop
  | .ev (.queued _ m) =>
    match m.body with
    -- ACK: code 0, with the id of a PING
    | .ack code => code = 0 ∧ m.msgType = 0 ∧ Request before 1 m.msgId
    -- STATUS: GET_STATUS
    | .status req _ _ => m.msgType = 9 ∧ Request before 8 req
    -- SCAN_REPORT: GET_SCAN_REPORT
    | .scanReport req _ _ => m.msgType = 11 ∧ Request before 10 req
    -- REGISTER: the beginning of the connection
    | .register .. => m.msgType = 2 ∧ before = []
    -- UPDATE and PING come by the clock
    | .update _ => m.msgType = 4
    | .empty => m.msgType = 1
    | _ => False
  -- a reset of the service table: RESET_SVC_TABLE; a scan of the network: SCAN_NETWORK
  | .ev (.command .resetServiceTable) => ∃ id, Request before 6 id
  | .ev (.command .scanNetwork) => ∃ id, Request before 7 id
  -- a connection to a service: CONNECT with its id and the number of the session
  | .ev (.mgr (.opened sid svc _ _ _)) =>
    ∃ m, Last before 13 m ∧ field m.payload 4 2 = svc.toNat ∧ field m.payload 6 4 = sid.toNat
  -- a refusal: CONNECT, or data, with the number of the session
  | .ev (.mgr (.refused sid)) =>
    (∃ m, Last before 13 m ∧ field m.payload 6 4 = sid.toNat) ∨
    (∃ m, before.getLast? = some (.ev (.got m .ok)) ∧ m.header.service ≠ 0 ∧ m.header.session = sid)
  -- the end of a session by the server: HUP with the number of the session
  | .ev (.mgr (.hungUp sid)) => ∃ m, Last before 5 m ∧ field m.payload 4 4 = sid.toNat
  | _ => True

end Verif.Spec.Solicited
