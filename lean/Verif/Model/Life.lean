import Verif.Model.CmdHandler
import Verif.Model.Reconnect
/-!
# Model of the life of a client

Source: /repo/src/client.rs (lines 271-436), the C interface in /repo/src/exports/mod.rs (lines 117-272), /repo/src/main.rs
and /repo/src/runtime.rs, over the command handler (`Verif.CmdHandler`).

The threads of the runtime, the scanner threads and the application interleave. One call of the application is one step,
also `close`; the application makes one call at a time and none after `free`. A poll of an abortable future is two steps: the
look at the abort flag, and the work. What the main task does is an input: the commands it sends and the state it sets. The
release profile is modelled: a panic in any thread aborts the process.
-/
namespace Verif.Life
open Verif.CmdHandler (H HOp HEv Cmd Owner Phase)
open Verif.Reconnect (ConnState)

/-- Where an abortable future is (client.rs:323-325, `futures::future::Abortable`): not spawned; between two polls; in a poll,
after the look at the flag; dropped. -/
inductive Poll where
  | notYet
  | idle
  | checked
  | gone
deriving DecidableEq, Repr

/-- The client object with its task, and the process (client.rs:271-281, exports/mod.rs:117-120). `h.alive` says whether the
receiver of the commands exists. -/
structure Life where
  h : H
  /-- the task was taken by `start` or `start_blocking` (exports/mod.rs:162, 178) -/
  started : Bool
  /-- the task was polled for the first time (client.rs:329-341) -/
  began : Bool
  main : Poll
  ticker : Poll
  /-- `close` was called: both abort flags are set, the channel is dropped (client.rs:418-429) -/
  closed : Bool
  freed : Bool
  /-- the task has ended: `block_on` returns (client.rs:343, runtime.rs:27, 41) -/
  over : Bool
  conn : ConnState
  aborted : Bool

/-- `ArrowClient::new` (client.rs:288-355) and `ac__arrow_client__new` (exports/mod.rs:121-145). -/
def Life.new (discovery : Bool) : Life :=
  { h := H.new discovery, started := false, began := false, main := .notYet, ticker := .notYet, closed := false,
    freed := false, over := false, conn := .disconnected, aborted := false }

/-- Steps: calls of the application (exports/mod.rs:149-260), and the tasks and threads (client.rs:300-343,
cmd_handler.rs:143-261). -/
inductive Op where
  /-- `ac__arrow_client__start`, `ac__arrow_client__start_blocking` -/
  | start
  | scan
  | rescan
  | close
  | free
  /-- the task is polled for the first time (client.rs:329-341) -/
  | begin
  /-- a poll of the main task begins -/
  | mainCheck
  /-- its work: the commands it sends, the connection state it sets -/
  | mainWork (cmds : List Cmd) (conn : Option ConnState)
  /-- a poll of the task that triggers periodic scans begins -/
  | tickCheck
  /-- its work (client.rs:316-317) -/
  | tickSend
  /-- the command handler takes the next event -/
  | handle (now : Nat)
  /-- scanner thread `i` makes its next step -/
  | work (i : Nat) (result : Option Nat)
  /-- the runtime is dropped after `block_on` has returned, and with it all spawned tasks (runtime.rs:22-28, 36-42) -/
  | shutdown

/-- What happens (exports/mod.rs:149-260, client.rs:300-343). -/
inductive Ev where
  /-- `start` returns a join handle, or NULL -/
  | startReturned (handle : Bool)
  | sent (o : Owner) (c : Cmd)
  /-- the main task worked -/
  | worked
  /-- the task ended -/
  | ended
  | handler (e : HEv)
  /-- a panic: the process is aborted -/
  | abort
deriving DecidableEq

/-- `CommandChannel::send` (cmd_handler.rs:76-81): a panic if the receiver is gone. -/
def Life.send (l : Life) (o : Owner) (c : Cmd) : Life × List Ev :=
  if l.h.alive then ({ l with h := (l.h.step (.send o c)).1 }, [.sent o c]) else ({ l with aborted := true }, [.abort])

/-- Several sends; none after a panic (cmd_handler.rs:75-80). -/
def Life.sendAll (l : Life) (o : Owner) : List Cmd → Life × List Ev
  | [] => (l, [])
  | c :: cs =>
    let r := l.send o c
    if r.1.aborted then r
    else
      let r2 := r.1.sendAll o cs
      (r2.1, r.2 ++ r2.2)

/-- `ArrowClient::close` (client.rs:418-429). -/
def Life.close (l : Life) : Life := { l with closed := true, h := (l.h.step (.drop .client)).1 }

/-- The calls of the application (exports/mod.rs:149-260, client.rs:399-436). -/
def Life.call (l : Life) : Op → Life × List Ev
  | .start => if l.started then (l, [.startReturned false]) else ({ l with started := true }, [.startReturned true])
  | .scan => if l.closed then (l, []) else l.sendAll .client [.scanNetwork]
  | .rescan => if l.closed then (l, []) else l.sendAll .client [.resetServiceTable, .scanNetwork]
  | .close => (l.close, [])
  | .free =>
    let l := { l.close with freed := true }
    -- a task that was not started is dropped, and the command handler in it
    if l.started then (l, []) else ({ l with h := { l.h with alive := false } }, [])
  | _ => (l, [])

/-- The steps of the tasks and threads (client.rs:300-343, cmd_handler.rs:143-261, runtime.rs:17-43). -/
def Life.task (l : Life) : Op → Life × List Ev
  | .begin =>
    if l.started ∧ ¬ l.began then ({ l with began := true, main := .idle, ticker := .idle }, []) else (l, [])
  | .mainCheck =>
    if l.main = .idle then
      if l.closed then ({ l with main := .gone, over := true, h := (l.h.step (.drop .mainTask)).1 }, [.ended])
      else ({ l with main := .checked }, [])
    else (l, [])
  | .mainWork cmds conn =>
    if l.main = .checked then
      let r := { l with main := .idle, conn := conn.getD l.conn }.sendAll .mainTask cmds
      (r.1, .worked :: r.2)
    else (l, [])
  | .tickCheck =>
    if l.ticker = .idle then
      if l.closed then ({ l with ticker := .gone, h := (l.h.step (.drop .periodic)).1 }, [])
      else ({ l with ticker := .checked }, [])
    else (l, [])
  | .tickSend => if l.ticker = .checked then { l with ticker := .idle }.send .periodic .periodicNetworkScan else (l, [])
  | .handle now =>
    if l.began ∧ l.h.alive then
      let r := l.h.step (.handle now)
      ({ l with h := r.1 }, r.2.map .handler)
    else (l, [])
  | .work i result =>
    -- `cmd_sender.unbounded_send(Event::ScanCompleted).unwrap()` (cmd_handler.rs:154)
    if l.h.workers[i]? = some .cleared ∧ ¬ l.h.alive then ({ l with aborted := true }, [.abort])
    else
      let r := l.h.step (.work i result)
      ({ l with h := r.1 }, r.2.map .handler)
  | .shutdown =>
    if l.over then
      ({ l with
          h := { l.h with alive := false, queue := [], senders := l.h.senders.filter (· ≠ .handler) }
          ticker := if l.ticker = .checked then .checked else .gone }, [])
    else (l, [])
  | _ => (l, [])

/-- Is it a call of the application (exports/mod.rs:149-260)? -/
def Op.isCall : Op → Bool
  | .start | .scan | .rescan | .close | .free => true
  | _ => false

/-- One step (client.rs:271-436). Nothing happens in an aborted process; there are no calls after `free`. -/
def Life.step (l : Life) (op : Op) : Life × List Ev :=
  if l.aborted then (l, [])
  else if op.isCall then (if l.freed then (l, []) else l.call op)
  else l.task op

/-- A history (client.rs:271-436). -/
def Life.run (l : Life) : List Op → Life × List Ev
  | [] => (l, [])
  | op :: ops =>
    let r := l.step op
    let r2 := r.1.run ops
    (r2.1, r.2 ++ r2.2)

end Verif.Life
