import Verif.Spec.Client
import Verif.Spec.SessionLog
/-!
# Reading the traffic of one tunnelled session off a whole connection

What an observer of a connection sees: the events of the connection (messages of the server as they are
handled, messages handed to the transport, sessions opened) and, between them, the I/O of the sessions with
their services.
-/
namespace Verif.Spec.Tunnel
open Verif Verif.Session Verif.Client

/-- Something seen on a connection. -/
inductive Seen where
  /-- an event of the connection -/
  | ev (e : NEv)
  /-- the task of session `sid` ran -/
  | io (sid : UInt32) (o : Io)

/-- The I/O of a step (all other steps show only their events). -/
def ioOf : COp → List Seen
  | .io sid o => [.io sid o]
  | _ => []

/-- What is seen from state `s` on. -/
def seenFrom (s : Conn) : List COp → List Seen
  | [] => []
  | op :: ops => ioOf op ++ (s.step op).2.map .ev ++ seenFrom (s.step op).1 ops

/-- What is seen during a whole connection. -/
def record (cfg : Cfg) (env : Env) (ops : List COp) : List Seen :=
  (Conn.start cfg env).2.map .ev ++ seenFrom (Conn.start cfg env).1 ops

/-- A session was opened: its id and its service. -/
def opening : Seen → Option (UInt32 × UInt16)
  | .ev (.ev (.mgr (.opened sid svc _ _ _))) => some (sid, svc)
  | _ => none

/-- Sessions were opened only with ids that fit into the 24 bits of the message header, and not for service 0
(which is the control protocol). -/
def Usable (r : List Seen) : Prop :=
  ∀ v ∈ r, ∀ sid svc, opening v = some (sid, svc) → sid.toNat < 2 ^ 24 ∧ svc ≠ 0

/-- Session `sid` was opened for this service. -/
def openingOf (sid : UInt32) (v : Seen) : Option UInt16 :=
  match opening v with
  | some (s, svc) => if s = sid then some svc else none
  | none => none

/-- What was seen since the latest opening of session `sid`, and the service of that opening. -/
def since (sid : UInt32) (r : List Seen) : UInt16 × List Seen :=
  r.foldl (fun a v => match openingOf sid v with
    | some svc => (svc, [])
    | none => (a.1, a.2 ++ [v])) (0, [])

/-- The message carries payload of session `sid` (service 0 is the control protocol). -/
def Carries (sid : UInt32) (m : Wire.Message) : Prop := m.header.service ≠ 0 ∧ m.header.session = sid

instance (sid : UInt32) (m : Wire.Message) : Decidable (Carries sid m) := by unfold Carries; infer_instance

/-- A DATA_ACK message as it stands on the wire (control service, type 12): session and length. -/
def dataAck (m : Wire.Message) : Option (Nat × Nat) :=
  if m.header.service = 0 ∧ m.payload.length = 12 ∧ field m.payload 2 2 = 12 then
    some (field m.payload 4 4, field m.payload 8 4)
  else none

/-- The messages handed to the transport. -/
def sentMessages (r : List Seen) : List Wire.Message :=
  r.filterMap fun | .ev (.sent m) => some m | _ => none

/-- The messages of the server that were handled without an error. -/
def gotMessages (r : List Seen) : List Wire.Message :=
  r.filterMap fun | .ev (.ev (.got m .ok)) => some m | _ => none

/-- The payload for session `sid` in a list of messages. -/
def payloads (sid : UInt32) (ms : List Wire.Message) : Bytes :=
  ms.flatMap fun m => if Carries sid m then m.payload else []

/-- The total length of the DATA_ACK messages for session `sid` in a list of messages. -/
def acknowledged (sid : UInt32) (ms : List Wire.Message) : Nat :=
  (ms.map fun m => match dataAck m with
    | some (s, len) => if s = sid.toNat then len else 0
    | none => 0).sum

/-- What something seen means for session `sid`: payload or an acknowledgement by the server, or I/O. -/
def inboxOf (sid : UInt32) : Seen → List Op
  | .ev (.ev (.got m .ok)) =>
    if Carries sid m then [.push m.payload]
    else match dataAck m with
      | some (s, len) => if s = sid.toNat then [.dataAck len] else []
      | none => []
  | .io s o => if s = sid then [o.op] else []
  | _ => []

def inbox (sid : UInt32) (r : List Seen) : List Op := r.flatMap (inboxOf sid)

/-- The payload for session `sid` in what a server sends, given as (service, session, payload). -/
def served (sid : UInt32) (xs : List (UInt16 × UInt32 × Bytes)) : Bytes :=
  xs.flatMap fun x => if x.1 ≠ 0 ∧ x.2.1.toNat % 2 ^ 24 = sid.toNat then x.2.2 else []

/-- The number of messages handled up to the latest opening of session `sid`. -/
def handledBefore (sid : UInt32) (r : List Seen) : Nat :=
  (gotMessages r).length - (gotMessages (since sid r).2).length

end Verif.Spec.Tunnel
