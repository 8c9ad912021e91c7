import Verif.Spec.SessionManager
import Verif.Spec.Session
/-!
# What each session was given and what it handed out, read off a history of the session manager
-/
namespace Verif.Spec.SessionLog
open Verif Verif.Session

/-- One entry per step: the operation, what was observed, and the answer to a poll. -/
abbrev Entry := MOp × List Ev × List PollRes

/-- The log of a history. -/
def log (m : Mgr) : List MOp → List Entry
  | [] => []
  | op :: ops => (op, (m.step op).2) :: log (m.step op).1 ops

/-- A session with this id was opened. -/
def opens (sid : UInt32) (evs : List Ev) : Option UInt16 :=
  evs.findSome? fun | .opened s svc _ _ _ => if s = sid then some svc else none | _ => none

/-- What an operation means for session `sid`: payload from the server, an acknowledgement by the server, or
the progress of the connection to the service. -/
def given (sid : UInt32) : MOp → List Op
  | .send msg => if msg.header.session = sid then [.push msg.payload] else []
  | .dataAck s len => if s = sid then [.dataAck len.toNat] else []
  | .io s o => if s = sid then [o.op] else []
  | _ => []

/-- The messages handed out for session `sid`. -/
def items (sid : UInt32) (evs : List Ev) : List Item :=
  evs.filterMap fun | .sent s i => if s = sid then some i else none | _ => none

/-- What is known about the latest session with an id: the service it was opened for, what it was given
since, and what it handed out since. -/
structure Account where
  svc : UInt16
  inbox : List Op
  outbox : List Item

/-- Keep the account of session `sid`. -/
def Account.step (sid : UInt32) (a : Account) (e : Entry) : Account :=
  match opens sid e.2.1 with
  | some svc => ⟨svc, [], []⟩
  | none => ⟨a.svc, a.inbox ++ given sid e.1, a.outbox ++ items sid e.2.1⟩

/-- The account of session `sid` after a history. -/
def account (sid : UInt32) (es : List Entry) : Account := es.foldl (Account.step sid) ⟨0, [], []⟩

/-- The messages handed out by a session. -/
def sentItems (os : List Obs) : List Item := os.filterMap fun | .sent i => some i | _ => none

/-- An operation that does not come from polling. -/
def notTake : Op → Bool
  | .take _ => false
  | _ => true

/-- Payload bytes of the data messages among the items. -/
def dataOf (is : List Item) : Bytes := is.flatMap fun | .data m => m.payload | .ack _ => []

/-- Sum of the server's acknowledgements. -/
def acksOf (ops : List Op) : Nat := (ops.map fun | .dataAck n => n | _ => 0).sum

/-- Payload bytes from the server. -/
def payloadOf (ops : List Op) : Bytes := ops.flatMap fun | .push d => d | _ => []

/-- Sum of the lengths of the DATA_ACK messages among the items. -/
def ackedOf (is : List Item) : Nat := (is.map fun | .ack m => Spec.Session.ackLength m | .data _ => 0).sum

/-- The session ids of the refusals, in order. -/
def refusals (es : List Entry) : List UInt32 :=
  es.flatMap fun e => e.2.1.filterMap fun | .refused s => some s | _ => none

/-- Messages handed out by polls without an event of a session. -/
def answers (es : List Entry) : List Wire.Message :=
  es.flatMap fun e => if e.2.1 = [] then e.2.2.filterMap fun | .ready m => some m | .pending => none else []

end Verif.Spec.SessionLog
