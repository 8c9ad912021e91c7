import Verif.Model.SessionManager
/-!
# Model of one connection to the Arrow Service

Source: /repo/src/net/arrow/mod.rs. Time is a `Nat` in nanoseconds (`Instant`, monotonic). What the
connection reads from the rest of the program (service table, scan result, scanning flag, clock) is
passed in as `Env` at every step, so that other threads may change it at any time. The message factory
is the counter of the session manager, with which it is shared. Logging is left out.
-/
namespace Verif.Client
open Verif.Control Verif.Session

/-- One second (`Duration::from_secs(1)`). -/
def sec : Nat := 1000000000
/-- `ACK_TIMEOUT` (mod.rs:50). -/
def ackTimeout : Nat := 20 * sec
/-- `PING_PERIOD` (mod.rs:52). -/
def pingPeriod : Nat := 60 * sec
/-- `UPDATE_CHECK_PERIOD` (mod.rs:53). -/
def updateCheckPeriod : Nat := 5 * sec
/-- `SESSION_WINDOW_SIZE` (mod.rs:55). -/
def sessionWindowSize : Nat := 65536

/-- `ErrorKind` (error.rs:28-39); the message text is left out. -/
inductive ErrKind where
  | connection | unsupportedVersion | unauthorized | serverError | other
deriving DecidableEq, Repr

/-- What does not change during a connection (`ApplicationContext` getters, mod.rs:111-128, 227-230,
353). -/
structure Cfg where
  uuid : Vector UInt8 16
  key : Vector UInt8 16
  mac : MacAddr
  gateway : Bool
  diagnostic : Bool
  info : Bytes

/-- What one step reads from the outside. The service table is shared with other threads; the three
reads of it made for an UPDATE are separate: the version compared (mod.rs:195), the services listed
(line 251), the version remembered (line 255). -/
structure Env where
  now : Nat
  table : UInt16 → Option Service
  version : UInt32
  visible : List (UInt16 × Service)
  versionAfter : UInt32
  scanning : Bool
  hosts : List HostRecord
  services : List Service
  getId : ServiceIdentifier → Option UInt16

/-- Commands given to the command handler (`enum Command`, src/cmd_handler.rs) (cmd_handler.rs:46-50). -/
inductive Cmd where
  | resetServiceTable
  | scanNetwork
deriving DecidableEq

/-- Result of handling a message. `panic` stands for the `expect` calls (mod.rs:292, 346, 383, ...). -/
inductive Out where
  | ok
  | err (e : ErrKind)
  | panic
deriving DecidableEq

/-- Observable effects of a connection (net/arrow/mod.rs:173-544, as called by it). -/
inductive CEv where
  /-- effect of the session manager -/
  | mgr (e : Ev)
  /-- a command was issued (mod.rs:526) -/
  | command (c : Cmd)
  /-- the client protocol created a message at this time and queued it for the server (mod.rs:203-211) -/
  | queued (at_ : Nat) (m : ControlMessage)
  /-- a message of the server was handled, with this outcome (mod.rs:272-287) -/
  | got (m : Wire.Message) (o : Out)
  /-- the version of the service table was compared with the last one announced (mod.rs:194-200) -/
  | checked (at_ : Nat) (version : UInt32)
deriving DecidableEq

/-- `struct ArrowClientContext` (mod.rs:85-104). An expected ACK is its time and message id (60-82).
`idle` is a ghost flag: the sending task was told "pending" and has not been woken by the client
protocol since. -/
structure Cli where
  cfg : Cfg
  mgr : Mgr
  messages : List Wire.Message
  acks : List (Nat × UInt16)
  established : Bool
  task : Bool
  redirect : Option Bytes
  closed : Bool
  lastPing : Nat
  lastCheck : Nat
  lastVer : UInt32
  idle : Bool

/-- Wake the task consuming messages (mod.rs:206-209, 456-459). -/
def Cli.wake (c : Cli) : Cli := { c with task := false, idle := c.idle && !c.task }

/-- `send_control_message` (mod.rs:203-211). -/
def Cli.sendControl (c : Cli) (now : Nat) (m : ControlMessage) : Cli × List CEv :=
  ({ c with messages := c.messages ++ [m.toArrow] }.wake, [.queued now m])

/-- `send_unconfirmed_control_message` (mod.rs:214-221). -/
def Cli.sendUnconfirmed (c : Cli) (now : Nat) (m : ControlMessage) : Cli × List CEv :=
  { c with acks := c.acks ++ [(now, m.msgId)] }.sendControl now m

/-- `cmsg_factory.next_id` (control/mod.rs:468-473): the next id and the client with the counter moved. -/
def Cli.nextId (c : Cli) : UInt16 × Cli :=
  (UInt16.ofNat c.mgr.counter, { c with mgr := (c.mgr.step .newId).1 })

/-- `send_register_message` (mod.rs:224-245). The assertion of `register` holds for the constant window
size; were it to fail, the model would queue nothing. -/
def Cli.sendRegister (c : Cli) (env : Env) : Cli × List CEv :=
  let r := c.nextId
  match mkRegister r.1 c.cfg.uuid c.cfg.key c.cfg.mac sessionWindowSize c.cfg.gateway
      (SimpleTable.ofServices env.visible) c.cfg.info with
  | some m => { r.2 with lastVer := env.versionAfter }.sendUnconfirmed env.now m
  | none => (r.2, [])

/-- `send_update_message` (mod.rs:248-258). -/
def Cli.sendUpdate (c : Cli) (env : Env) : Cli × List CEv :=
  let r := c.nextId
  { r.2 with lastVer := env.versionAfter }.sendControl env.now
    (mkUpdate r.1 (SimpleTable.ofServices env.visible))

/-- `send_ping_message` (mod.rs:261-269). -/
def Cli.sendPing (c : Cli) (now : Nat) : Cli × List CEv :=
  let r := c.nextId
  let s := r.2.sendUnconfirmed now (mkPing r.1)
  ({ s.1 with lastPing := now }, s.2)

/-- `ArrowClientContext::new` (mod.rs:111-152). -/
def Cli.new (cfg : Cfg) (env : Env) : Cli × List CEv :=
  Cli.sendRegister
    { cfg := cfg, mgr := Mgr.new cfg.gateway sessionWindowSize 0, messages := [], acks := [],
      established := false, task := false, redirect := none, closed := false, lastPing := env.now,
      lastCheck := env.now, lastVer := 0, idle := false } env

/-- `is_closed` (mod.rs:160-162). -/
def Cli.isClosed (c : Cli) : Bool := c.closed || c.redirect.isSome

/-- `ack_timeout` (mod.rs:165-170). -/
def Cli.ackTimedOut (c : Cli) (now : Nat) : Bool :=
  match c.acks with
  | [] => false
  | a :: _ => decide (ackTimeout ≤ now - a.1)

/-- `check_for_updates` (mod.rs:194-200). -/
def Cli.checkForUpdates (c : Cli) (env : Env) : Cli × List CEv :=
  let r := if c.lastVer ≠ env.version then c.sendUpdate env else (c, [])
  ({ r.1 with lastCheck := env.now }, .checked env.now env.version :: r.2)

/-- `time_event` (mod.rs:173-191). -/
def Cli.timeEvent (c : Cli) (env : Env) : Out × Cli × List CEv :=
  let r1 := if c.established && decide (pingPeriod ≤ env.now - c.lastPing) then c.sendPing env.now
    else (c, [])
  let r2 := if r1.1.established && decide (updateCheckPeriod ≤ env.now - r1.1.lastCheck) then
      r1.1.checkForUpdates env
    else (r1.1, [])
  (if r2.1.ackTimedOut env.now then .err .connection else .ok, r2.1, r1.2 ++ r2.2)

/-- Apply a session manager operation (net/arrow/mod.rs:376-441, 532-542). -/
def Cli.onMgr (c : Cli) (op : MOp) : Cli × List CEv :=
  let r := c.mgr.step op
  ({ c with mgr := r.1 }, r.2.1.map .mgr)

/-- `process_handshake_ack` (mod.rs:345-373). -/
def Cli.handshakeAck (c : Cli) (err : UInt32) : Out × Cli :=
  if err = ecNoError then
    (.ok, { c with
      established := true
      redirect := if c.cfg.diagnostic then some [] else c.redirect })
  else if err = ecUnauthorized then (.err .unauthorized, c)
  else if err = ecUnsupportedProtocolVersion then (.err .unsupportedVersion, c)
  else if err = ecInternalServerError then (.err .serverError, c)
  else (.err .other, c)

/-- `process_ack_message` (mod.rs:326-342). -/
def Cli.processAck (c : Cli) (id : UInt16) (body : Body) : Out × Cli :=
  match c.acks with
  | [] => (.err .other, c)
  | a :: rest =>
    let c := { c with acks := rest }
    if id = a.2 then
      if c.established then (.ok, c)
      else
        match body with
        | .ack err => c.handshakeAck err
        | _ => (.panic, c)
    else (.err .other, c)

/-- The handlers that are refused in the handshake state (mod.rs:376-549): guard and effect. -/
def Cli.whenEstablished (c : Cli) (f : Cli → Out × Cli × List CEv) : Out × Cli × List CEv :=
  if c.established then f c else (.err .other, c, [])

/-- `process_control_protocol_message` after decoding (mod.rs:305-323) with the handlers of lines
326-527. -/
def Cli.processControl (c : Cli) (env : Env) (m : ControlMessage) : Out × Cli × List CEv :=
  match MsgType.ofCode m.msgType with
  | .ack => let r := c.processAck m.msgId m.body; (r.1, r.2, [])
  | .connect => c.whenEstablished fun c =>
    match m.body with
    | .connect svc sid => let r := c.onMgr (.connect env.table svc sid); (.ok, r.1, r.2)
    | _ => (.panic, c, [])
  | .dataAck => c.whenEstablished fun c =>
    match m.body with
    | .dataAck sid len => let r := c.onMgr (.dataAck sid len); (.ok, r.1, r.2)
    | _ => (.panic, c, [])
  | .ping => c.whenEstablished fun c =>
    let r := c.sendControl env.now (mkAck m.msgId 0)
    (.ok, r.1, r.2)
  | .hup => c.whenEstablished fun c =>
    match m.body with
    | .hup sid _ => let r := c.onMgr (.close sid); (.ok, r.1, r.2)
    | _ => (.panic, c, [])
  | .redirect => c.whenEstablished fun c =>
    match m.body with
    | .redirect t => (.ok, { c with redirect := some t }.wake, [])
    | _ => (.panic, c, [])
  | .getStatus => c.whenEstablished fun c =>
    let r := c.nextId
    let s := r.2.sendControl env.now (mkStatus r.1 m.msgId (if env.scanning then 1 else 0)
      (UInt32.ofNat c.mgr.len))
    (.ok, s.1, s.2)
  | .getScanReport => c.whenEstablished fun c =>
    let r := c.nextId
    let s := r.2.sendControl env.now (mkScanReport r.1 m.msgId env.hosts env.services env.getId)
    (.ok, s.1, s.2)
  | .resetSvcTable => c.whenEstablished fun c => (.ok, c, [.command .resetServiceTable])
  | .scanNetwork => c.whenEstablished fun c => (.ok, c, [.command .scanNetwork])
  | .unknown => (.err .other, c, [])
  | .register | .update | .status | .scanReport => (.err .other, c, [])

/-- `process_arrow_message` for a client that is not closed (mod.rs:278-284 with 290-292, 532-541). -/
def Cli.handle (c : Cli) (env : Env) (msg : Wire.Message) : Out × Cli × List CEv :=
  if msg.header.service = 0 then
    match ControlMessage.fromBytes msg.payload with
    | .ok m => c.processControl env m
    | .err => (.err .other, c, [])
    | .panic => (.panic, c, [])
  else c.whenEstablished fun c => let r := c.onMgr (.send msg); (.ok, r.1, r.2)

/-- `process_arrow_message` (mod.rs:272-287). -/
def Cli.recv (c : Cli) (env : Env) (msg : Wire.Message) : Out × Cli × List CEv :=
  if c.isClosed then (.ok, c, [])
  else
    let r := c.handle env msg
    (r.1, r.2.1, .got msg r.1 :: r.2.2)

/-- Result of polling the messages of the context (net/arrow/mod.rs:549-570). -/
inductive CPoll where
  | ready (m : Wire.Message)
  | done
  | pending
deriving DecidableEq

/-- `poll_next` of the context (mod.rs:552-569). -/
def Cli.ctxPoll (c : Cli) : CPoll × Cli × List CEv :=
  if c.isClosed then (.done, c, [])
  else
    match c.messages with
    | m :: ms => (.ready m, { c with messages := ms }, [])
    | [] =>
      let r := c.mgr.poll
      match r.1 with
      | .ready m => (.ready m, { c with mgr := r.2.1 }, r.2.2.map .mgr)
      | .pending => (.pending, { c with mgr := r.2.1, task := true, idle := true }, r.2.2.map .mgr)

/-! ## `ArrowClient` and `connect` (mod.rs:571-722) -/

/-- An answer of the incoming message stream: a message (with what its handling reads), an error, the
end, or "pending" (net/arrow/mod.rs:583-615, 640-668). -/
inductive Incoming where
  | msg (env : Env) (m : Wire.Message)
  | error (e : ErrKind)
  | eof
  | pending

/-- Result of one poll of the client: a message for the server, an error, the end, or "pending" (net/arrow/mod.rs:637-668). -/
inductive Polled where
  | send (m : Wire.Message)
  | error (e : ErrKind)
  | done
  | pending
  | panic
deriving DecidableEq

/-- The loop of `ArrowClient::poll_next` (mod.rs:651-665); `ins` are the next answers of the incoming
stream, which is pending once they are used up. -/
def Cli.pollLoop (c : Cli) : List Incoming → Polled × Cli × List CEv
  | [] =>
    let r := c.ctxPoll
    match r.1 with
    | .ready m => (.send m, r.2)
    | .done => (.done, r.2)
    | .pending => (.pending, r.2)
  | i :: ins =>
    let r := c.ctxPoll
    match r.1 with
    | .ready m => (.send m, r.2)
    | .done => (.done, r.2)
    | .pending =>
      match i with
      | .msg env m =>
        let s := r.2.1.recv env m
        match s.1 with
        | .ok => let t := Cli.pollLoop s.2.1 ins; (t.1, t.2.1, r.2.2 ++ s.2.2 ++ t.2.2)
        | .err e => (.error e, s.2.1, r.2.2 ++ s.2.2)
        | .panic => (.panic, s.2.1, r.2.2 ++ s.2.2)
      | .error e => (.error e, r.2.1, r.2.2)
      | .eof => let t := Cli.pollLoop { r.2.1 with closed := true } ins; (t.1, t.2.1, r.2.2 ++ t.2.2)
      | .pending => (.pending, r.2.1, r.2.2)

/-- `ArrowClient::poll_next` (mod.rs:640-667): one answer of the incoming stream is handled first. While
a poll runs, its task is not waiting. -/
def Cli.poll (c : Cli) (first : Incoming) (ins : List Incoming) : Polled × Cli × List CEv :=
  let c := { c with idle := false }
  match first with
  | .msg env m =>
    let s := c.recv env m
    match s.1 with
    | .ok => let t := s.2.1.pollLoop ins; (t.1, t.2.1, s.2.2 ++ t.2.2)
    | .err e => (.error e, s.2.1, s.2.2)
    | .panic => (.panic, s.2.1, s.2.2)
  | .error e => (.error e, c, [])
  | .eof => { c with closed := true }.pollLoop ins
  | .pending => c.pollLoop ins

/-- Result of `connect` (mod.rs:671-722) after the TLS connection was made. -/
inductive Result where
  | redirect (target : Bytes)
  | error (e : ErrKind)
  | panic
deriving DecidableEq

/-- `connect` is running; the client is closed and `send_all` flushes the transport, after which the
result will be `r`; or `connect` has returned (net/arrow/mod.rs:671-722). -/
inductive Conn where
  | live (c : Cli)
  | closing (r : Result)
  | over (r : Result)

/-- The end of `connect` (mod.rs:715-721) when no error was reported. -/
def Cli.result (c : Cli) : Result :=
  match c.redirect with
  | some t => .redirect t
  | none => .error .connection

/-- What can happen while `connect` runs: the sender polls the client, the watchdog fires (mod.rs:596-609),
a session task runs, the sink fails (the `Err` of `send_all`), the final flush is complete. -/
inductive COp where
  | poll (first : Incoming) (ins : List Incoming)
  | tick (env : Env)
  | io (sid : UInt32) (o : Io)
  | sinkError (e : ErrKind)
  | flushed

/-- Observable effects: those of the client, and messages handed to the transport (net/arrow/mod.rs:671-722). -/
inductive NEv where
  | ev (e : CEv)
  | sent (m : Wire.Message)
deriving DecidableEq

/-- One step of a running connection (mod.rs:705-721). A panic in the watchdog task would end `connect`
with `Other`; in the sender it ends the process. -/
def Cli.step (c : Cli) : COp → Conn × List NEv
  | .poll first ins =>
    let r := c.poll first ins
    match r.1 with
    | .send m => (.live r.2.1, r.2.2.map .ev ++ [.sent m])
    | .error e => (.over (.error e), r.2.2.map .ev)
    | .done => (.closing r.2.1.result, r.2.2.map .ev)
    | .pending => (.live r.2.1, r.2.2.map .ev)
    | .panic => (.over .panic, r.2.2.map .ev)
  | .tick env =>
    if c.isClosed then (.over c.result, [])
    else
      let r := c.timeEvent env
      match r.1 with
      | .ok => (.live r.2.1, r.2.2.map .ev)
      | .err e => (.over (.error e), r.2.2.map .ev)
      | .panic => (.over (.error .other), r.2.2.map .ev)
  | .io sid o => let r := c.onMgr (.io sid o); (.live r.1, r.2.map .ev)
  | .sinkError e => (.over (.error e), [])
  | .flushed => (.live c, [])

/-- One step of `connect`. While closing, the client is not polled any more (the stream given to
`send_all` has ended); the watchdog finds the client closed and ends `connect` like the completed flush
does. Nothing happens after the end (net/arrow/mod.rs:671-722). -/
def Conn.step (s : Conn) (op : COp) : Conn × List NEv :=
  match s with
  | .live c => c.step op
  | .closing r =>
    match op with
    | .flushed => (.over r, [])
    | .tick _ => (.over r, [])
    | .sinkError e => (.over (.error e), [])
    | _ => (.closing r, [])
  | .over r => (.over r, [])

/-- A history of a connection (a sequence of steps; net/arrow/mod.rs:671-722). -/
def Conn.run (s : Conn) : List COp → Conn × List NEv
  | [] => (s, [])
  | op :: ops =>
    let r := s.step op
    let t := Conn.run r.1 ops
    (t.1, r.2 ++ t.2)

/-- `connect` from the moment the connection is up (mod.rs:702-703). -/
def Conn.start (cfg : Cfg) (env : Env) : Conn × List NEv :=
  let r := Cli.new cfg env
  (.live r.1, r.2.map .ev)

end Verif.Client
