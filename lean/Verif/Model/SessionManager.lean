import Verif.Model.Session
import Verif.Model.Map
/-!
# Model of the session manager

Source: /repo/src/net/arrow/session.rs lines 478-735. The message factory is its counter. Sessions
that were removed from the map keep a detached task in the code; that task finds its context closed
and ends (`SessionTransport::poll`, theorem `C11_closed_writes_nothing`), so it is not tracked here.
Logging is left out.
-/
namespace Verif.Session
open Verif.Control (mkHup ecConnectionError ecNoError)

/-- `struct SessionManager` (session.rs:479-490). `task` says whether a waker is stored. `idle` is a
ghost flag: the manager was last told "pending" and its task has not been woken since. -/
structure Mgr where
  gateway : Bool
  window : Nat
  counter : Nat
  queue : List Wire.Message
  sessions : AMap UInt32 Sess
  order : List UInt32
  task : Bool
  idle : Bool

/-- `SessionManager::new` (session.rs:498-519). -/
def Mgr.new (gateway : Bool) (window counter : Nat) : Mgr :=
  { gateway := gateway, window := window, counter := counter, queue := [], sessions := [],
    order := [], task := false, idle := false }

/-- `SessionManager::len` (session.rs:522-524). -/
def Mgr.len (m : Mgr) : Nat := m.sessions.length

/-- Observable effects of the manager, per session id (session.rs:527-735). -/
inductive Ev where
  /-- a connection to a service is opened (`Session::new`, session.rs:350-386) -/
  | opened (sid : UInt32) (svc : UInt16) (type : ServiceType) (mac : MacAddr) (addr : SocketAddr)
  /-- a CONNECT or a data message was refused: a HUP is queued -/
  | refused (sid : UInt32)
  /-- the server hung up an open session -/
  | hungUp (sid : UInt32)
  /-- a message of a session was handed to the consumer -/
  | sent (sid : UInt32) (i : Item)
  /-- a session ended, a HUP with this code was handed to the consumer -/
  | ended (sid : UInt32) (code : UInt32)
deriving DecidableEq

/-- `create_hup_message` (session.rs:647-656). -/
def Mgr.createHup (m : Mgr) (sid code : UInt32) : Wire.Message × Mgr :=
  ((mkHup (UInt16.ofNat m.counter) sid code).toArrow, { m with counter := m.counter + 1 })

/-- `if let Some(task) = self.task.take() { task.wake() }` (session.rs:547-549, 566-568). -/
def Mgr.wake (m : Mgr) : Mgr := { m with task := false, idle := m.idle && !m.task }

/-- The checks of `connect_inner` (session.rs:595-627): the service to connect to, with its address.
`get` is the lookup in the service table at the time of the request. -/
def Mgr.connectTarget (m : Mgr) (get : UInt16 → Option Service) (svc : UInt16) (sid : UInt32) :
    Option (Service × SocketAddr) :=
  if (m.sessions.get sid).isSome then none
  else
    match get svc with
    | none => none
    | some s =>
      match s.address with
      | none => none
      | some addr => if !m.gateway && !addr.ip.isLoopback then none else some (s, addr)

/-- `SessionManager::connect` (session.rs:527-550 with 595-644). -/
def Mgr.connect (m : Mgr) (get : UInt16 → Option Service) (svc : UInt16) (sid : UInt32) :
    Mgr × List Ev :=
  match m.connectTarget get svc sid with
  | some (s, addr) =>
    ({ m with
        order := m.order ++ [sid]
        sessions := m.sessions.insert sid (Sess.new svc sid m.window) }.wake,
      [.opened sid svc s.svcType (s.mac.getD .zero) addr])
  | none =>
    let r := m.createHup sid ecConnectionError
    ({ r.2 with queue := r.2.queue ++ [r.1] }.wake, [.refused sid])

/-- Apply an operation to an open session; the manager's task is woken if the session wakes it (session.rs:554-593). -/
def Mgr.onSession (m : Mgr) (sid : UInt32) (s : Sess) (op : Op) : Mgr :=
  let s' := (s.step op).1
  { m with
    sessions := m.sessions.insert sid s'
    idle := m.idle && !(s.ghost.mgrIdle && !s'.ghost.mgrIdle) }

/-- `SessionManager::send` (session.rs:554-571); the session id is that of the message header. -/
def Mgr.send (m : Mgr) (msg : Wire.Message) : Mgr × List Ev :=
  match m.sessions.get msg.header.session with
  | some s => (m.onSession msg.header.session s (.push msg.payload), [])
  | none =>
    let r := m.createHup msg.header.session ecConnectionError
    ({ r.2 with queue := r.2.queue ++ [r.1] }.wake, [.refused msg.header.session])

/-- `SessionManager::close` (session.rs:574-584): the session is removed and closed; closing wakes
the manager's task if the session holds its waker. The rotation is not touched. -/
def Mgr.close (m : Mgr) (sid : UInt32) : Mgr × List Ev :=
  match m.sessions.get sid with
  | some s =>
    let m := m.onSession sid s .close
    ({ m with sessions := m.sessions.remove sid }, [.hungUp sid])
  | none => (m, [])

/-- `SessionManager::process_data_ack` (session.rs:587-591). -/
def Mgr.dataAck (m : Mgr) (sid len : UInt32) : Mgr × List Ev :=
  match m.sessions.get sid with
  | some s => (m.onSession sid s (.dataAck len.toNat), [])
  | none => (m, [])

/-- Result of polling the manager's message stream (it never ends) (session.rs:676-735). -/
inductive PollRes where
  | ready (m : Wire.Message)
  | pending
deriving DecidableEq

/-- The loop of `poll_next` (session.rs:685-724), `k` rounds left, and its end (726-732). -/
def Mgr.pollLoop : Nat → Mgr → PollRes × Mgr × List Ev
  | 0, m => (.pending, { m with task := true, idle := true }, [])
  | k + 1, m =>
    match m.order with
    | [] => pollLoop k m
    | sid :: rest =>
      match m.sessions.get sid with
      | none => pollLoop k { m with order := rest }
      | some s =>
        let r := s.ctx.take m.counter
        let s' := (s.step (.take m.counter)).1
        match r.1 with
        | .pending =>
          pollLoop k { m with
            sessions := m.sessions.insert sid s', order := rest ++ [sid], counter := r.2.2.1 }
        | .finished =>
          let h := { m with
            sessions := m.sessions.remove sid, order := rest, counter := r.2.2.1,
            idle := false }.createHup sid ecNoError
          (.ready h.1, h.2, [.ended sid ecNoError])
        | .item i =>
          (.ready i.toArrow,
            { m with
              sessions := m.sessions.insert sid s', order := rest ++ [sid],
              counter := r.2.2.1, idle := false },
            [.sent sid i])
        | .err _ =>
          let h := { m with
            sessions := m.sessions.remove sid, order := rest, counter := r.2.2.1,
            idle := false }.createHup sid ecConnectionError
          (.ready h.1, h.2, [.ended sid ecConnectionError])

/-- `poll_next` (session.rs:680-734). -/
def Mgr.poll (m : Mgr) : PollRes × Mgr × List Ev :=
  match m.queue with
  | msg :: q => (.ready msg, { m with queue := q, idle := false }, [])
  | [] => m.pollLoop m.order.length

/-- What the task of a session can do on its own (session.rs:375-383, 437-475). -/
inductive Io where
  | connected
  | connectFailed (n : Nat)
  | transport (rd : ReadRes) (wr : WriteRes)
deriving DecidableEq

/-- The session operation of an I/O step (session.rs:419-476). -/
def Io.op : Io → Op
  | .connected => .connected
  | .connectFailed n => .connectFailed n
  | .transport rd wr => .transport rd wr

/-- Everything that can happen to the manager. `connect` comes with the content of the service table
at that time. `newId` is the client protocol taking a message id from the shared message factory
(`ControlMessageFactory`, control/mod.rs:454-475). -/
inductive MOp where
  | connect (get : UInt16 → Option Service) (svc : UInt16) (sid : UInt32)
  | send (msg : Wire.Message)
  | close (sid : UInt32)
  | dataAck (sid len : UInt32)
  | io (sid : UInt32) (o : Io)
  | poll
  | newId

/-- One step of the manager; the messages it hands to its consumer are the last component (session.rs:527-735, by the definitions above). -/
def Mgr.step (m : Mgr) : MOp → Mgr × List Ev × List PollRes
  | .connect get svc sid => let r := m.connect get svc sid; (r.1, r.2, [])
  | .send msg => let r := m.send msg; (r.1, r.2, [])
  | .close sid => let r := m.close sid; (r.1, r.2, [])
  | .dataAck sid len => let r := m.dataAck sid len; (r.1, r.2, [])
  | .io sid o =>
    match m.sessions.get sid with
    | some s => (m.onSession sid s o.op, [], [])
    | none => (m, [], [])
  | .poll => let r := m.poll; (r.2.1, r.2.2, [r.1])
  | .newId => ({ m with counter := m.counter + 1 }, [], [])

/-- A history of the manager (a sequence of steps; session.rs:527-735). -/
def Mgr.run (m : Mgr) : List MOp → Mgr × List Ev × List PollRes
  | [] => (m, [], [])
  | op :: ops =>
    let r := m.step op
    let r2 := r.1.run ops
    (r2.1, r.2.1 ++ r2.2.1, r.2.2 ++ r2.2.2)

end Verif.Session
