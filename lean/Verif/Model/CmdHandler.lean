import Verif.Model.Client
/-!
# Model of the command handler and the network scanner thread

Source: /repo/src/cmd_handler.rs, with the feature "discovery", and the life of the command channel in
/repo/src/client.rs lines 300-429. Time is a `Nat` in nanoseconds. The channel is an unbounded FIFO queue
that is closed for the receiver when no sender is left. `scan_network` of the discovery module is an outside
function with some result. Logging is left out.
-/
namespace Verif.CmdHandler
open Verif.Client (sec)

/-- `NETWORK_SCAN_PERIOD` (cmd_handler.rs:42). -/
def scanPeriod : Nat := 300 * sec

/-- `Command` (cmd_handler.rs:45-50). -/
inductive Cmd where
  | resetServiceTable
  | scanNetwork
  | periodicNetworkScan
deriving DecidableEq

/-- `Event` (cmd_handler.rs:53-57). -/
inductive Msg where
  | command (c : Cmd)
  | scanCompleted
deriving DecidableEq

/-- Where a scanner thread is (network_scanner_thread, cmd_handler.rs:221-261, and the closure in 151-155).
A thread that has signalled has nothing left to do but return. -/
inductive Phase where
  /-- before `set_scanning(true)` (232) -/
  | spawned
  /-- in `discovery::scan_network` (236-241) -/
  | scanning
  /-- before `update_service_table` (248), with the result -/
  | found (services : Nat)
  /-- before `set_scan_result` (249) -/
  | updated (services : Nat)
  /-- before `set_scanning(false)` (259) -/
  | stored
  /-- before `unbounded_send(ScanCompleted)` (154) -/
  | cleared
  | signalled
  /-- panicked somewhere -/
  | dead
deriving DecidableEq

/-- Who holds a sender of the command channel: the client object, the main task, the task that triggers
periodic scans, the handler itself (`cmd_sender`, cmd_handler.rs:86), a scanner thread. -/
inductive Owner where
  | client
  | mainTask
  | periodic
  | handler
  | worker (i : Nat)
deriving DecidableEq

/-- `CommandHandlerContext` (cmd_handler.rs:83-89) with the channel, the scanner threads (numbered from 0;
the number stands for the `JoinHandle`), and the scanning flag of the application context. `alive` says
whether the handler task is still running. -/
structure H where
  discovery : Bool
  lastScan : Option Nat
  scanner : Option Nat
  queue : List Msg
  senders : List Owner
  workers : List Phase
  flag : Bool
  alive : Bool

/-- `cmd_handler::new` (cmd_handler.rs:212-219) and the clones made in client.rs:300-370. -/
def H.new (discovery : Bool) : H :=
  { discovery := discovery, lastScan := none, scanner := none, queue := [],
    senders := [.client, .mainTask, .periodic, .handler], workers := [], flag := false, alive := true }

/-- What can be observed (cmd_handler.rs:108-180, 223-260). -/
inductive HEv where
  | reset
  /-- a scanner thread was started -/
  | started (i : Nat)
  /-- the scanning flag was set -/
  | scanning (b : Bool)
  /-- the services found were put into the service table -/
  | published (i services : Nat)
  /-- the scan result was stored -/
  | stored (i services : Nat)
  /-- the handler was told that the scan is over -/
  | completed (now : Nat)
  /-- `CommandChannel::send` panicked: "broken command channel" -/
  | sendPanic
deriving DecidableEq

/-- `scan_network` (cmd_handler.rs:143-158). -/
def H.scanNetwork (h : H) : H × List HEv :=
  if !h.discovery || h.scanner.isSome then (h, [])
  else
    ({ h with
        workers := h.workers ++ [.spawned]
        senders := h.senders ++ [.worker h.workers.length]
        scanner := some h.workers.length },
      [.started h.workers.length])

/-- `process_command` with `reset_service_table` and `periodic_network_scan` (cmd_handler.rs:115-139). -/
def H.processCommand (h : H) (now : Nat) : Cmd → H × List HEv
  | .resetServiceTable => (h, [.reset])
  | .scanNetwork => h.scanNetwork
  | .periodicNetworkScan =>
    let elapsed := match h.lastScan with
      | some t => now - t
      | none => scanPeriod
    if elapsed ≥ scanPeriod then h.scanNetwork else (h, [])

/-- `scan_completed` (cmd_handler.rs:169-177). The thread that is joined has signalled, so `join` returns. -/
def H.scanCompleted (h : H) (now : Nat) : H × List HEv :=
  ({ h with scanner := none, lastScan := some now }, [.completed now])

/-- `proces_event` (cmd_handler.rs:107-113). -/
def H.processEvent (h : H) (now : Nat) : Msg → H × List HEv
  | .command c => h.processCommand now c
  | .scanCompleted => h.scanCompleted now

/-- What can happen (cmd_handler.rs:77-82, 188-210, 223-260, client.rs:300-429). -/
inductive HOp where
  /-- somebody who holds a channel sends a command (cmd_handler.rs:75-79) -/
  | send (o : Owner) (c : Cmd)
  /-- the handler task takes the next event from the channel (cmd_handler.rs:191-195) -/
  | handle (now : Nat)
  /-- scanner thread `i` makes its next step; `result` is what `discovery::scan_network` returns -/
  | work (i : Nat) (result : Option Nat)
  /-- scanner thread `i` panics -/
  | crash (i : Nat)
  /-- `close`: the client drops its channel; the main task and the periodic task are aborted and with them
  their channels are dropped (client.rs:418-429) -/
  | drop (o : Owner)
deriving DecidableEq

/-- The scanner thread's next step (cmd_handler.rs:143-180, 223-260). -/
def H.work (h : H) (i : Nat) (result : Option Nat) : H × List HEv :=
  match h.workers[i]? with
  | some .spawned => ({ h with workers := h.workers.set i .scanning, flag := true }, [.scanning true])
  | some .scanning =>
    match result with
    | some n => ({ h with workers := h.workers.set i (.found n) }, [])
    | none => ({ h with workers := h.workers.set i .stored }, [])
  | some (.found n) => ({ h with workers := h.workers.set i (.updated n) }, [.published i n])
  | some (.updated n) => ({ h with workers := h.workers.set i .stored }, [.stored i n])
  | some .stored => ({ h with workers := h.workers.set i .cleared, flag := false }, [.scanning false])
  | some .cleared =>
    ({ h with
        workers := h.workers.set i .signalled
        queue := h.queue ++ [.scanCompleted]
        senders := h.senders.filter (· ≠ .worker i) }, [])
  | _ => (h, [])

/-- A panic of the scanner thread drops what it holds (only where panics unwind; release builds abort) (cmd_handler.rs:143-158). -/
def H.crash (h : H) (i : Nat) : H × List HEv :=
  match h.workers[i]? with
  | none => (h, [])
  | some .signalled => (h, [])
  | some _ =>
    ({ h with workers := h.workers.set i .dead, senders := h.senders.filter (· ≠ .worker i) }, [])

/-- One step (cmd_handler.rs:108-210, by the definitions above). -/
def H.step (h : H) : HOp → H × List HEv
  | .send o c =>
    if o ∈ h.senders ∧ (o = .client ∨ o = .mainTask ∨ o = .periodic) then
      if h.alive then ({ h with queue := h.queue ++ [.command c] }, []) else (h, [.sendPanic])
    else (h, [])
  | .handle now =>
    if h.alive then
      match h.queue with
      | m :: q => { h with queue := q }.processEvent now m
      | [] => if h.senders = [] then ({ h with alive := false }, []) else (h, [])
    else (h, [])
  | .work i result => h.work i result
  | .crash i => h.crash i
  | .drop o =>
    if o = .client ∨ o = .mainTask ∨ o = .periodic then
      ({ h with senders := h.senders.filter (· ≠ o) }, [])
    else (h, [])

/-- A history (a sequence of steps; cmd_handler.rs:188-210). -/
def H.run (h : H) : List HOp → H × List HEv
  | [] => (h, [])
  | op :: ops =>
    let r := h.step op
    let r2 := r.1.run ops
    (r2.1, r.2 ++ r2.2)

end Verif.CmdHandler
