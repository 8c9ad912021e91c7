import Verif.Model.Text
/-!
# Model of the asynchronous TLS streams

Source: /repo/src/net/tls.rs (80-312, 352-373).

OpenSSL is an engine: a call of it is a program (`Prog`) that reads from, writes to and flushes the stream below through the
callbacks and then returns. What the stream below (a TCP connection) answers is an input of each step. Streams are numbered,
and so are the tasks, by which wakers are named. A thread that polls a stream makes single steps, so that those of different
threads interleave in every way; as a poll needs `&mut`, a stream is polled by one thread at a time. The waker a callback uses
is found in a variable of its thread. Futures are driven by `.await`: a step that is not due is ignored.
-/
namespace Verif.TlsIo
open Verif

/-- The kind of an I/O error (tls.rs:146, 201-204). -/
inductive Kind where
  | wouldBlock
  | other (code : Nat)
deriving DecidableEq

/-- What the engine asks of the stream below (tls.rs:137, 158, 170); `shutdown` is asked by `poll_shutdown` (tls.rs:265). -/
inductive Req where
  | read (len : Nat)
  | write (data : Bytes)
  | flush
  | shutdown
deriving DecidableEq

/-- The value of an answer: the bytes that were read, the number of bytes that were written, or nothing (tls.rs:137-181). -/
inductive Val where
  | bytes (bs : Bytes)
  | count (n : Nat)
  | unit
deriving DecidableEq

/-- What the stream below answers to a poll (tls.rs:143, 162, 174, 265). -/
inductive Answer where
  | pending
  | ready (v : Val)
  | failed (k : Kind)
deriving DecidableEq

/-- What the engine is told (tls.rs:143-149, 162-166, 174-178). -/
inductive Told where
  | ok (v : Val)
  | err (k : Kind)
deriving DecidableEq

/-- A call of the engine: it returns, or uses a callback and goes on with what it is told (tls.rs:199, 222, 234, 246, 300, 364). -/
inductive Prog (α : Type) where
  | ret (a : α)
  | io (r : Req) (k : Told → Prog α)

/-- Change what a call returns (used for tls.rs:199-207, 222-228, 234-240, 246-260, 292-310). -/
def Prog.map {α β : Type} (f : α → β) : Prog α → Prog β
  | .ret a => .ret (f a)
  | .io r k => .io r fun x => (k x).map f

/-- What a read, write or flush of the engine returns (tls.rs:199-205, 222-228, 234-240). -/
inductive Result (α : Type) where
  | ok (a : α)
  | err (k : Kind)
deriving DecidableEq

/-- What `shutdown` of the engine returns: `io` is an error with an I/O error in it (tls.rs:246-258). -/
inductive Shut where
  | ok
  | io (k : Kind)
  | ssl
deriving DecidableEq

/-- `HandshakeResult` (tls.rs:276): established, `SetupFailure`, `Failure`, or `WouldBlock` with the state to go on from. -/
inductive Handshake (E : Type) where
  | ok (e : E)
  | setupFailure
  | failure
  | wouldBlock (e : E)

/-- The engine (openssl::ssl::SslStream, MidHandshakeSslStream, ConnectConfiguration; tls.rs:199, 222, 234, 246, 300, 362-364). -/
structure Engine (E : Type) where
  connect : E → Prog (Handshake E)
  handshake : E → Prog (Handshake E)
  read : E → Nat → Prog (E × Result Bytes)
  write : E → Bytes → Prog (E × Result Nat)
  flush : E → Prog (E × Result Unit)
  shutdown : E → Prog (E × Shut)

/-- Where a connection is (tls.rs:184-186, 279-281, 352-373): before the handshake; `TlsConnect` with its field; a `TlsStream`;
failed. -/
inductive Conn (E : Type) where
  | fresh (e : E)
  | connecting (h : Option (Handshake E))
  | stream (e : E)
  | failed

/-- A poll (tls.rs:192, 215, 231, 243, 289, 356). -/
inductive Op where
  /-- the closure of `lazy` -/
  | start
  | connect
  | read (len : Nat)
  | write (data : Bytes)
  | flush
  | shutdown
deriving DecidableEq

/-- What a poll returns (tls.rs:192-266, 289-310, 356-365). -/
inductive Out where
  | pending
  | started
  | connected
  | refused
  | read (r : Result Bytes)
  | wrote (r : Result Nat)
  | flushed (r : Result Unit)
  | shut (r : Result Unit)
deriving DecidableEq

/-- What is left to do when the engine returns: give back the connection and a result, or shut the stream below down
(tls.rs:261-265); `panic` is a panic in `buf.advance` (tls.rs:200). -/
inductive Next (E : Type) where
  | done (c : Conn E) (o : Out)
  | close (c : Conn E)
  | panic

/-- The result of `poll_read` (tls.rs:199-207). `advance` panics if there is not so much room. -/
def readResult {E : Type} (len : Nat) : E × Result Bytes → Next E
  | (e, .ok bs) => if bs.length ≤ len then .done (.stream e) (.read (.ok bs)) else .panic
  | (e, .err .wouldBlock) => .done (.stream e) .pending
  | (e, .err k) => .done (.stream e) (.read (.err k))

/-- The result of `poll_write` (tls.rs:222-228). -/
def writeResult {E : Type} : E × Result Nat → Next E
  | (e, .ok n) => .done (.stream e) (.wrote (.ok n))
  | (e, .err .wouldBlock) => .done (.stream e) .pending
  | (e, .err k) => .done (.stream e) (.wrote (.err k))

/-- The result of `poll_flush` (tls.rs:231-241). -/
def flushResult {E : Type} : E × Result Unit → Next E
  | (e, .ok u) => .done (.stream e) (.flushed (.ok u))
  | (e, .err .wouldBlock) => .done (.stream e) .pending
  | (e, .err k) => .done (.stream e) (.flushed (.err k))

/-- The first part of `poll_shutdown` (tls.rs:246-259); the code 0 stands for `ErrorKind::Other`. -/
def shutdownResult {E : Type} : E × Shut → Next E
  | (e, .ok) => .close (.stream e)
  | (e, .io .wouldBlock) => .done (.stream e) .pending
  | (e, .io k) => .done (.stream e) (.shut (.err k))
  | (e, .ssl) => .done (.stream e) (.shut (.err (.other 0)))

/-- The result of the first call of the handshake is kept for `TlsConnect` (tls.rs:362-371). -/
def startResult {E : Type} (h : Handshake E) : Next E := .done (.connecting (some h)) .started

/-- The result of `TlsConnect::poll` after `m.handshake()` (tls.rs:300-309). -/
def connectResult {E : Type} : Handshake E → Next E
  | .ok e => .done (.stream e) .connected
  | .setupFailure => .done .failed .refused
  | .failure => .done .failed .refused
  | .wouldBlock e => .done (.connecting (some (.wouldBlock e))) .pending

/-- The program of a poll; `none`: it is not due; `.ret .panic` a panic (tls.rs:192-266, 289-311, 356-365). -/
def program {E : Type} (eng : Engine E) (c : Conn E) (op : Op) : Option (Prog (Next E)) :=
  match op, c with
  | .start, .fresh e => some ((eng.connect e).map startResult)
  | .connect, .connecting none => some (.ret .panic)
  | .connect, .connecting (some (.ok e)) => some (.ret (.done (.stream e) .connected))
  | .connect, .connecting (some .setupFailure) => some (.ret (.done .failed .refused))
  | .connect, .connecting (some .failure) => some (.ret (.done .failed .refused))
  | .connect, .connecting (some (.wouldBlock e)) => some ((eng.handshake e).map connectResult)
  | .read len, .stream e => some ((eng.read e len).map (readResult len))
  | .write data, .stream e => some ((eng.write e data).map writeResult)
  | .flush, .stream e => some ((eng.flush e).map flushResult)
  | .shutdown, .stream e => some ((eng.shutdown e).map shutdownResult)
  | _, _ => none

/-- The connection while it is polled: `self.handshake.take()` (tls.rs:292-294). -/
def taken {E : Type} : Conn E → Conn E
  | .connecting _ => .connecting none
  | c => c

/-- What a thread is doing (tls.rs:192-311): polling connection `conn` with the waker of the task `waker`. -/
structure Running (E : Type) where
  conn : Nat
  waker : Nat
  prog : Prog (Next E)

/-- The process: for each thread its `ASYNC_CONTEXT` (tls.rs:80-84) and what it does; the connections; whether a panic has
aborted it. -/
structure Sys (E : Type) where
  context : Nat → Option Nat
  running : Nat → Option (Running E)
  conns : Nat → Conn E
  /-- the connection is borrowed by a poll -/
  busy : Nat → Bool
  aborted : Bool

/-- Steps: thread `t` begins a poll of connection `i` with the waker of task `w`; it makes its next step, with what the stream
below answers if it is polled (tls.rs:192-311). -/
inductive Step where
  | begin (t i w : Nat) (op : Op)
  | next (t : Nat) (a : Answer)
deriving DecidableEq

/-- What happens: a poll begins, the stream below is polled, a poll returns, a panic (tls.rs:192-311). -/
inductive Ev where
  | begin (t i w : Nat) (op : Op)
  | below (t i w : Nat) (r : Req) (a : Answer)
  | ret (t i w : Nat) (o : Out)
  | abort
deriving DecidableEq

/-- What the callbacks tell the engine (tls.rs:143-149, 162-166, 174-178). -/
def tell : Answer → Told
  | .pending => .err .wouldBlock
  | .ready v => .ok v
  | .failed k => .err k

/-- The result of `inner.poll_shutdown(cx)` (tls.rs:265). -/
def shutOut : Answer → Out
  | .pending => .pending
  | .ready _ => .shut (.ok ())
  | .failed k => .shut (.err k)

/-- A function changed at one place (bookkeeping of the model for tls.rs:80-104). -/
def upd {α : Type} (f : Nat → α) (k : Nat) (v : α) : Nat → α := fun j => if j = k then v else f j

/-- The poll of thread `t` returns: the context is dropped (tls.rs:89-95). -/
def Sys.leave {E : Type} (s : Sys E) (t : Nat) (r : Running E) (c : Conn E) (o : Out) : Sys E × List Ev :=
  (⟨upd s.context t none, upd s.running t none, upd s.conns r.conn c, upd s.busy r.conn false, s.aborted⟩, [.ret t r.conn r.waker o])

/-- One step (tls.rs:98-119, 137-181, 192-311). -/
def Sys.step {E : Type} (eng : Engine E) (s : Sys E) (x : Step) : Sys E × List Ev :=
  if s.aborted then (s, [])
  else
    match x with
    | .begin t i w op =>
      match s.running t with
      | some _ => (s, [])
      | none =>
        if s.busy i then (s, [])
        else
          match program eng (s.conns i) op with
          | none => (s, [])
          | some p =>
            (⟨upd s.context t (some w), upd s.running t (some ⟨i, w, p⟩), upd s.conns i (taken (s.conns i)), upd s.busy i true,
              s.aborted⟩, [.begin t i w op])
    | .next t a =>
      match s.running t with
      | none => (s, [])
      | some r =>
        match r.prog with
        | .io q k =>
          -- `with_async_context`: "no async context set"
          match s.context t with
          | none => ({ s with aborted := true }, [.abort])
          | some w => ({ s with running := upd s.running t (some { r with prog := k (tell a) }) }, [.below t r.conn w q a])
        | .ret (.done c o) => s.leave t r c o
        | .ret (.close c) =>
          let l := s.leave t r c (shutOut a)
          (l.1, .below t r.conn r.waker .shutdown a :: l.2)
        | .ret .panic => ({ s with aborted := true }, [.abort])

/-- Connections before the handshake; no thread polls (tls.rs:80-84, 352). -/
def Sys.new {E : Type} (init : Nat → E) : Sys E := ⟨fun _ => none, fun _ => none, fun i => .fresh (init i), fun _ => false, false⟩

/-- A history (tls.rs:192-311). -/
def Sys.run {E : Type} (eng : Engine E) (s : Sys E) : List Step → Sys E × List Ev
  | [] => (s, [])
  | x :: xs =>
    let r := s.step eng x
    let r2 := r.1.run eng xs
    (r2.1, r.2 ++ r2.2)

end Verif.TlsIo
