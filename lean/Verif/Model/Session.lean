import Verif.Model.Control
/-!
# Model of a session with an external service

Source: /repo/src/net/arrow/session.rs lines 42-476. `usize` capacities are natural numbers. A waker
slot (`Option<Waker>`) is a Boolean "a waker is stored"; the slots `session_manager_task` and
`session_transport_task` are only ever filled by the session manager's task and by the transport
task respectively, so the stored waker needs no identity. Each operation also returns which tasks it
woke. The lock around the context makes every operation below atomic.
-/
namespace Verif.Session
open Verif.Control (ControlMessage mkDataAck)

/-- `BUFFER_CAPACITY` (session.rs:42). -/
def bufferCapacity : Nat := 8192

/-- `ConnectionError` (src/net/arrow/error.rs), with an arbitrary number standing for the message of
an I/O or connect error (error.rs:161-189). -/
inductive ConnErr where
  | capacityExceeded
  | io (n : Nat)
  | connect (n : Nat)
deriving DecidableEq, Repr

/-- Tasks woken by an operation (session.rs:87-340: `Waker::wake`). -/
structure Wakes where
  mgr : Bool
  trans : Bool
deriving DecidableEq, Repr

/-- Wakes of two consecutive steps (bookkeeping of the model for session.rs:87-340). -/
def Wakes.or (a b : Wakes) : Wakes := ⟨a.mgr || b.mgr, a.trans || b.trans⟩

/-- Nothing woken (bookkeeping of the model for session.rs:87-340). -/
def Wakes.none : Wakes := ⟨false, false⟩

/-- `struct SessionContext` (session.rs:47-60). The message factory (a shared counter) is passed to
the operation that uses it. -/
structure Ctx where
  svc : UInt16
  sess : UInt32
  input : Bytes
  output : Bytes
  inCap : Nat
  outCap : Nat
  written : Nat
  mgrTask : Bool
  transTask : Bool
  closed : Bool
  error : Option ConnErr
deriving DecidableEq, Repr

/-- `SessionContext::new` (session.rs:64-84). -/
def Ctx.new (svc : UInt16) (sess : UInt32) (window : Nat) : Ctx :=
  { svc := svc, sess := sess, input := [], output := [], inCap := window, outCap := window,
    written := 0, mgrTask := false, transTask := false, closed := false, error := none }

/-- `if let Some(task) = self.session_manager_task.take() { task.wake() }` (e.g. session.rs:92-94). -/
def Ctx.wakeMgr (c : Ctx) : Ctx × Wakes := ({ c with mgrTask := false }, ⟨c.mgrTask, false⟩)

/-- `if let Some(task) = self.session_transport_task.take() { task.wake() }` (e.g. session.rs:133-135). -/
def Ctx.wakeTrans (c : Ctx) : Ctx × Wakes := ({ c with transTask := false }, ⟨false, c.transTask⟩)

/-- `SessionContext::process_data_ack` (session.rs:87-95). -/
def Ctx.processDataAck (c : Ctx) (len : Nat) : Ctx × Wakes :=
  { c with inCap := c.inCap + len }.wakeMgr

/-- `SessionContext::close` (session.rs:312-326). -/
def Ctx.close (c : Ctx) : Ctx × Wakes :=
  let r1 := { c with closed := true }.wakeTrans
  let r2 := r1.1.wakeMgr
  (r2.1, r1.2.or r2.2)

/-- `SessionContext::set_error` (session.rs:330-339). -/
def Ctx.setError (c : Ctx) (e : ConnErr) : Ctx × Wakes :=
  if c.closed then (c, .none) else { c with error := some e }.close

/-- `SessionContext::take_data_ack` (session.rs:99-111). `n` is the counter of the message factory;
`len as u32` truncates. -/
def Ctx.takeDataAck (n : Nat) (c : Ctx) : Option ControlMessage × Ctx × Nat :=
  if c.written > 0 then
    (some (mkDataAck (UInt16.ofNat n) c.sess (UInt32.ofNat c.written)),
     { c with written := 0, outCap := c.outCap + c.written }, n + 1)
  else (none, c, n)

/-- What happened to a payload passed to `push_output_message` (ghost result, for the statement of
properties) (session.rs:114-144). -/
inductive Pushed where
  | ignored
  | exceeded
  | accepted
deriving DecidableEq, Repr

/-- `SessionContext::push_output_message` (session.rs:114-138). -/
def Ctx.push (c : Ctx) (data : Bytes) : Ctx × Wakes × Pushed :=
  if c.closed then (c, .none, .ignored)
  else if data.length > c.outCap then
    let r := c.setError .capacityExceeded
    (r.1, r.2, .exceeded)
  else
    let c := { c with outCap := c.outCap - data.length, output := c.output ++ data }
    if c.output ≠ [] then
      let r := c.wakeTrans
      (r.1, r.2, .accepted)
    else (c, .none, .accepted)

/-- A message taken from a session: a DATA_ACK or a data message (session.rs:147-190). -/
inductive Item where
  | ack (m : ControlMessage)
  | data (m : Wire.Message)
deriving DecidableEq

/-- The Arrow message of an item (`msg.into()` in session.rs:152, `ArrowMessage::new` in 170-174). -/
def Item.toArrow : Item → Wire.Message
  | .ack m => m.toArrow
  | .data m => m

/-- `Poll<Option<Result<ArrowMessage, ConnectionError>>>` (session.rs:147-190). -/
inductive TakeRes where
  | item (i : Item)
  | err (e : ConnErr)
  | finished
  | pending
deriving DecidableEq

/-- `SessionContext::take_arrow_message` (session.rs:147-190). -/
def Ctx.take (n : Nat) (c : Ctx) : TakeRes × Ctx × Nat × Wakes :=
  match c.takeDataAck n with
  | (some m, c, n) => (.item (.ack m), c, n, .none)
  | (none, c, n) =>
    let k := min c.inCap c.input.length
    let data := c.input.take k
    let c := { c with inCap := c.inCap - k, input := c.input.drop k }
    let r := if c.input.length < bufferCapacity then c.wakeTrans else (c, .none)
    let c := r.1
    if data ≠ [] then (.item (.data (Wire.Message.new c.svc c.sess data)), c, n, r.2)
    else if c.closed then
      match c.error with
      | some e => (.err e, { c with error := none }, n, r.2)
      | none => (.finished, c, n, r.2)
    else (.pending, { c with mgrTask := true }, n, r.2)

/-- Result of polling the service connection for reading (`poll_read_buf`). The input buffer always
has spare capacity when it is called (lines 193-210), so `ok []` means end of stream. -/
inductive ReadRes where
  | pending
  | ok (bs : Bytes)
  | err (n : Nat)
deriving DecidableEq, Repr

/-- Result of polling the service connection for writing (`poll_write_buf`): number of bytes written.
By the `AsyncWrite` contract it is at most the number of bytes offered; the model takes the minimum (session.rs:213-223). -/
inductive WriteRes where
  | pending
  | ok (k : Nat)
  | err (n : Nat)
deriving DecidableEq, Repr

/-- `SessionContext::poll_read_input` (session.rs:225-265 with 193-210). `rd` is what the stream
answers if it is polled; the last component says whether the result is `Ready`. -/
def Ctx.pollRead (c : Ctx) (rd : ReadRes) : Ctx × Wakes × Bool :=
  if c.closed then (c, .none, true)
  else if c.input.length ≥ bufferCapacity then ({ c with transTask := true }, .none, false)
  else
    match rd with
    | .pending => ({ c with transTask := true }, .none, false)
    | .ok bs =>
      let r := if bs = [] then c.close else ({ c with input := c.input ++ bs }, .none)
      let r2 := if r.1.input ≠ [] then r.1.wakeMgr else (r.1, .none)
      (r2.1, r.2.or r2.2, true)
    | .err n =>
      let r := c.setError (.io n)
      let r2 := if r.1.input ≠ [] then r.1.wakeMgr else (r.1, .none)
      (r2.1, r.2.or r2.2, true)

/-- `SessionContext::poll_write_output` (session.rs:269-308 with 213-222). -/
def Ctx.pollWrite (c : Ctx) (wr : WriteRes) : Ctx × Wakes × Bool :=
  if c.output = [] then
    if c.closed then (c, .none, true) else ({ c with transTask := true }, .none, false)
  else
    match wr with
    | .pending => ({ c with transTask := true }, .none, false)
    | .ok k =>
      let k := min k c.output.length
      let r := { c with output := c.output.drop k, written := c.written + k }.wakeMgr
      (r.1, r.2, true)
    | .err n =>
      let r := c.setError (.io n)
      (r.1, r.2, true)

/-- Result of `SessionTransport::poll`: finished, or pending with or without an immediate self wake-up (session.rs:456-475). -/
inductive TransPoll where
  | done
  | again
  | idle
deriving DecidableEq, Repr

/-- `SessionTransport::poll` (session.rs:456-475). -/
def Ctx.pollTransport (c : Ctx) (rd : ReadRes) (wr : WriteRes) : TransPoll × Ctx × Wakes :=
  if c.closed then (.done, c, .none)
  else
    let r1 := c.pollRead rd
    let r2 := r1.1.pollWrite wr
    (if r1.2.2 || r2.2.2 then .again else .idle, r2.1, r1.2.1.or r2.2.1)

/-! ## The life of a session -/

/-- What the spawned task is doing (session.rs:375-383): waiting for the connection, driving the
transport, or finished. -/
inductive Phase where
  | connecting
  | running
  | done
deriving DecidableEq, Repr

/-- Ghost flags for the wake-up property: `mgrIdle` — the manager was last told "pending" for this
session and has not been woken since; `transIdle` likewise for the transport task; `rdBlocked`,
`wrBlocked` — in the latest poll of the transport the stream itself was polled for reading (writing)
and said "pending", i.e. it holds the transport's waker (session.rs:47-60: the wakers). -/
structure Ghost where
  mgrIdle : Bool
  transIdle : Bool
  rdBlocked : Bool
  wrBlocked : Bool
deriving DecidableEq, Repr

/-- A session: shared context, spawned task, ghost flags (session.rs:343-387). -/
structure Sess where
  ctx : Ctx
  phase : Phase
  ghost : Ghost
deriving DecidableEq, Repr

/-- `Session::new` (session.rs:350-386). -/
def Sess.new (svc : UInt16) (sess : UInt32) (window : Nat) : Sess :=
  ⟨.new svc sess window, .connecting, ⟨false, false, false, false⟩⟩

/-- Everything that can happen to a session (session.rs:343-476). -/
inductive Op where
  /-- `Session::push` (session.rs:394-396), a data message of the server. -/
  | push (data : Bytes)
  /-- `Session::process_data_ack` (session.rs:389-391). -/
  | dataAck (len : Nat)
  /-- `Session::take` (session.rs:405-407), with the current message counter. -/
  | take (n : Nat)
  /-- `Session::close` (session.rs:412-414). -/
  | close
  /-- The connector finished (session.rs:437-446, 379-380). -/
  | connected
  /-- The connector failed or timed out (session.rs:439-442, 381). -/
  | connectFailed (n : Nat)
  /-- The transport task is polled (session.rs:456-475). -/
  | transport (rd : ReadRes) (wr : WriteRes)
deriving DecidableEq

/-- Observable effects of a session (session.rs:343-476). -/
inductive Obs where
  /-- the payload of a data message of the server was accepted -/
  | accepted (data : Bytes)
  /-- the session was given a reason to end: clean (`none`) or an error -/
  | cause (e : Option ConnErr)
  /-- bytes read from the service -/
  | read (bs : Bytes)
  /-- bytes written to the service -/
  | wrote (bs : Bytes)
  /-- DATA_ACK of the server received -/
  | gotAck (len : Nat)
  /-- message handed to the session manager -/
  | sent (i : Item)
  /-- the manager was told the session failed -/
  | failed (e : ConnErr)
  /-- the manager was told the session is finished -/
  | finished
deriving DecidableEq

/-- Apply the wakes of an operation to the ghost flags (session.rs:87-340: `Waker::wake`). -/
def Ghost.woken (g : Ghost) (w : Wakes) : Ghost :=
  { g with mgrIdle := g.mgrIdle && !w.mgr, transIdle := g.transIdle && !w.trans }

/-- What was read by a transport poll in context `c` (only if the stream was polled) (session.rs:225-266). -/
def readObs (c : Ctx) (rd : ReadRes) : List Obs :=
  if c.input.length ≥ bufferCapacity then []
  else match rd with
    | .pending => []
    | .ok bs => if bs = [] then [.cause none] else [.read bs]
    | .err n => [.cause (some (.io n))]

/-- What was written by a transport poll in context `c` (after the read) (session.rs:269-309). -/
def writeObs (c : Ctx) (wr : WriteRes) : List Obs :=
  if c.output = [] then []
  else match wr with
    | .pending => []
    | .ok k => [.wrote (c.output.take k)]
    | .err n => [.cause (some (.io n))]

/-- One step of a session: the operations above plus book-keeping of observations and ghost flags (session.rs:343-476, by the definitions above). -/
def Sess.step (s : Sess) : Op → Sess × List Obs
  | .push data =>
    let r := s.ctx.push data
    ({ s with ctx := r.1, ghost := s.ghost.woken r.2.1 },
      match r.2.2 with
      | .ignored => []
      | .exceeded => [.cause (some .capacityExceeded)]
      | .accepted => [.accepted data])
  | .dataAck len =>
    let r := s.ctx.processDataAck len
    ({ s with ctx := r.1, ghost := s.ghost.woken r.2 }, [.gotAck len])
  | .take n =>
    let r := s.ctx.take n
    let g := s.ghost.woken r.2.2.2
    ({ s with ctx := r.2.1, ghost := { g with mgrIdle := r.1 = .pending } },
      match r.1 with
      | .item i => [.sent i]
      | .err e => [.failed e]
      | .finished => [.finished]
      | .pending => [])
  | .close =>
    let r := s.ctx.close
    ({ s with ctx := r.1, ghost := s.ghost.woken r.2 }, [.cause none])
  | .connected => if s.phase = .connecting then ({ s with phase := .running }, []) else (s, [])
  | .connectFailed n =>
    if s.phase = .connecting then
      let r := s.ctx.setError (.connect n)
      ({ ctx := r.1, phase := .done, ghost := s.ghost.woken r.2 }, [.cause (some (.connect n))])
    else (s, [])
  | .transport rd wr =>
    if s.phase = .running then
      let r := s.ctx.pollTransport rd wr
      if s.ctx.closed then ({ s with phase := .done }, [])
      else
        let mid := (s.ctx.pollRead rd).1
        let g := s.ghost.woken r.2.2
        ({ s with
            ctx := r.2.1
            ghost :=
              { g with
                transIdle := r.1 = .idle && !r.2.2.trans
                rdBlocked := s.ctx.input.length < bufferCapacity && rd = .pending
                wrBlocked := mid.output ≠ [] && wr = .pending } },
          readObs s.ctx rd ++ writeObs mid wr)
    else (s, [])

/-- A history of a session (a sequence of steps; session.rs:343-476). -/
def Sess.run (s : Sess) : List Op → Sess × List Obs
  | [] => (s, [])
  | op :: ops =>
    let r := s.step op
    let r2 := r.1.run ops
    (r2.1, r.2 ++ r2.2)

end Verif.Session
