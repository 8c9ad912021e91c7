import Verif.Spec.Client
/-!
# Specification: what a connection holds back

Counted on the events of a connection: messages that were made for the server and messages that were handed to the
transport.
-/
namespace Verif.Spec.Backlog
open Verif Verif.Session Verif.Client

/-- The client made a message for the server that does not carry data of a session: REGISTER, PING, UPDATE, an answer,
or the HUP by which it refuses something. -/
def isMade : NEv → Bool
  | .ev (.queued _ _) => true
  | .ev (.mgr (.refused _)) => true
  | _ => false

/-- One of the messages the client makes on its own, by the clock: PING (type 1) or UPDATE (type 4). -/
def isPeriodic : NEv → Bool
  | .ev (.queued _ m) => m.msgType = 1 || m.msgType = 4
  | _ => false

/-- A message was handed to the transport. -/
def isSent : NEv → Bool
  | .sent _ => true
  | _ => false

/-- The message that is handed to the transport comes from a session: its data, its DATA_ACK or the HUP at its end. -/
def isFromSession : NEv → Bool
  | .ev (.mgr (.sent _ _)) => true
  | .ev (.mgr (.ended _ _)) => true
  | _ => false

/-- A message of the server was handled. -/
def isHandled : NEv → Bool
  | .ev (.got _ _) => true
  | _ => false

/-- After these events, `n` of the messages the client made are waiting to be sent: those that were made, less those that
were sent and did not come from a session. -/
def Waiting (es : List NEv) (n : Nat) : Prop :=
  es.countP isMade + es.countP isFromSession = es.countP isSent + n

/-- All reads from services deliver at most `m` bytes at a time. -/
def ReadsAtMost (m : Nat) (ops : List COp) : Prop :=
  ∀ sid bs wr, COp.io sid (.transport (.ok bs) wr) ∈ ops → bs.length ≤ m

/-- The bytes a client holds for its sessions, in both directions. -/
def held (c : Cli) : Nat := (c.mgr.sessions.map fun p => p.2.ctx.input.length + p.2.ctx.output.length).sum

end Verif.Spec.Backlog
