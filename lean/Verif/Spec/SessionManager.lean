import Verif.Model.SessionManager
/-!
# Vocabulary for the properties of the session manager
-/
namespace Verif.Spec.SessionManager
open Verif Verif.Session

/-- A session has something for the server: bytes written to the service and not yet acknowledged,
bytes read from the service and room in the server's window, or its end. -/
def HasOutput (s : Sess) : Prop :=
  s.ctx.written ≠ 0 ∨ (s.ctx.input ≠ [] ∧ s.ctx.inCap ≠ 0) ∨ s.ctx.closed = true

/-- A loopback address: 127.x.x.x or ::1. -/
def Loopback : IpAddr → Prop
  | .v4 a _ _ _ => a = 127
  | .v6 s0 s1 s2 s3 s4 s5 s6 s7 => [s0, s1, s2, s3, s4, s5, s6, s7] = [0, 0, 0, 0, 0, 0, 0, 1]

/-- CONNECT to service `svc` as session `sid` may be granted, and then goes to service `s` at `addr`:
the session id is not in use, the service table knows the service and its address, and the client is
a gateway or the address is loopback. -/
def Allowed (m : Mgr) (table : UInt16 → Option Service) (svc : UInt16) (sid : UInt32) (s : Service)
    (addr : SocketAddr) : Prop :=
  m.sessions.get sid = none ∧ table svc = some s ∧ s.address = some addr ∧
    (m.gateway = true ∨ Loopback addr.ip)

/-- The life of session id `sid`: `open?` says whether a session with this id is open. A session is
opened only while none is open, sends only while it is open, and its end - with a HUP to the server or
because the server hung up - closes it. `none` means that this order is violated. -/
def next (sid : UInt32) (open? : Bool) : Ev → Option Bool
  | .opened s _ _ _ _ => if s = sid then (if open? then none else some true) else some open?
  | .sent s _ => if s = sid then (if open? then some true else none) else some open?
  | .ended s _ => if s = sid then (if open? then some false else none) else some open?
  | .hungUp s => if s = sid then (if open? then some false else none) else some open?
  | .refused _ => some open?

/-- `next` over a list of events. -/
def after (sid : UInt32) : Bool → List Ev → Option Bool
  | o, [] => some o
  | o, e :: es => match next sid o e with
    | some o' => after sid o' es
    | none => none

/-- The messages sent by sessions (data, DATA_ACK, HUP at the end), with the session's id. -/
def served : List Ev → List UInt32
  | [] => []
  | .sent s _ :: es => s :: served es
  | .ended s _ :: es => s :: served es
  | _ :: es => served es

/-- The addresses services were connected at. -/
def openedAddrs : List Ev → List SocketAddr
  | [] => []
  | .opened _ _ _ _ a :: es => a :: openedAddrs es
  | _ :: es => openedAddrs es

/-- Sessions opened / ended by their service in a history. -/
def openedCount : List Ev → Nat
  | [] => 0
  | .opened _ _ _ _ _ :: es => openedCount es + 1
  | _ :: es => openedCount es
def endedCount : List Ev → Nat
  | [] => 0
  | .ended _ _ :: es => endedCount es + 1
  | _ :: es => endedCount es

/-- Two session states differ at most in the stored wakers. -/
def SameData (a b : Sess) : Prop :=
  b.phase = a.phase ∧ b.ctx = { a.ctx with mgrTask := b.ctx.mgrTask, transTask := b.ctx.transTask }

/-- The session an operation is addressed to. -/
def target : MOp → Option UInt32
  | .connect _ _ sid => some sid
  | .send msg => some msg.header.session
  | .close sid => some sid
  | .dataAck sid _ => some sid
  | .io sid _ => some sid
  | .poll => none
  | .newId => none

/-- A HUP message as the server sees it: message id, session id (24 bits) and error code. -/
def hupMessage (id : UInt16) (sid code : UInt32) : Wire.Message :=
  { header := { version := 2, service := 0, session := 0, size := 0 },
    payload := be16 id ++ be16 5 ++ be32 (UInt32.ofNat (sid.toNat % 2 ^ 24)) ++ be32 code }

end Verif.Spec.SessionManager
