import Verif.Model.CmdHandler
import Verif.Model.SvcTable
/-!
# Model of network scans over time

Source: /repo/src/client.rs lines 313-318 (the task that triggers scans), /repo/src/cmd_handler.rs (the handler and the
scanner thread, by `Verif.Model.CmdHandler`), and the calls of /repo/src/svc_table/mod.rs a scan makes.

Here the steps of `Verif.Model.CmdHandler` have times, in nanoseconds, and the runtime is prompt: it lets no deadline pass.
The deadlines are parameters. The scanner thread does not panic, and its scan succeeds (`scan_network` fails only if no
runtime can be created, discovery.rs:101-105). The client is not closed.
-/
namespace Verif.Cadence
open Verif Verif.CmdHandler Verif.SvcTable

/-- How prompt the client is (client.rs:313-318, cmd_handler.rs:190-195, 221-260). -/
structure Timing where
  /-- the longest time between two triggers: one second, and the lateness of the timer (client.rs:315-317) -/
  tick : Nat
  /-- the longest time a message waits for the handler (cmd_handler.rs:191-195) -/
  lag : Nat
  /-- the longest time of a scan (cmd_handler.rs:221-260) -/
  scan : Nat

/-- The handler with its channel and scanner thread, and the deadlines: of the next trigger, of the next poll of the handler
if a message waits, of the end of the scan if there is one (client.rs:313-318, cmd_handler.rs:83-89). -/
structure Sys where
  now : Nat
  h : H
  tickDue : Nat
  pollDue : Option Nat
  scanDue : Option Nat

/-- What can happen (client.rs:313-318, cmd_handler.rs:75-79, 190-195, 221-260). -/
inductive Op where
  /-- time passes -/
  | wait (d : Nat)
  /-- the task that triggers scans sends its command -/
  | tick
  /-- the client object or the main task sends a command -/
  | ask (o : Owner) (c : Cmd)
  /-- the handler is polled and takes all messages -/
  | poll
  /-- the scanner thread makes its next step; `report` stands for what the scan finds -/
  | work (report : Nat)

/-- The scanner thread has not yet signalled its end (cmd_handler.rs:151-155). -/
def working (h : H) : Bool :=
  match h.scanner with
  | some i =>
    match h.workers[i]? with
    | some .signalled => false
    | some .dead => false
    | some _ => true
    | none => false
  | none => false

/-- The state with a new state of the handler: a deadline begins with the message or the scan it is for (cmd_handler.rs:151-155,
190-195). -/
def Sys.settle (T : Timing) (s : Sys) (h : H) : Sys :=
  { s with
    h := h
    pollDue := if h.queue = [] then none else some (s.pollDue.getD (s.now + T.lag))
    scanDue := if working h then some (s.scanDue.getD (s.now + T.scan)) else none }

/-- The start (client.rs:303-330): the first trigger is sent at once, when the task is polled. -/
def Sys.new (T : Timing) (discovery : Bool) : Sys := ⟨0, H.new discovery, T.tick, none, none⟩

/-- No deadline is before the time. -/
def Sys.canWait (s : Sys) (t : Nat) : Bool :=
  t ≤ s.tickDue && s.pollDue.all (t ≤ ·) && s.scanDue.all (t ≤ ·)

/-- One step, with the events and their time (client.rs:313-318, cmd_handler.rs:75-260). -/
def Sys.step (T : Timing) (s : Sys) : Op → Sys × List (Nat × HEv)
  | .wait d => (if s.canWait (s.now + d) then { s with now := s.now + d } else s, [])
  | .tick =>
    let r := s.h.step (.send .periodic .periodicNetworkScan)
    ({ s.settle T r.1 with tickDue := s.now + T.tick }, r.2.map fun e => (s.now, e))
  | .ask o c =>
    if o = .client ∨ o = .mainTask then
      let r := s.h.step (.send o c)
      (s.settle T r.1, r.2.map fun e => (s.now, e))
    else (s, [])
  | .poll =>
    let r := s.h.run (List.replicate s.h.queue.length (.handle s.now))
    (s.settle T r.1, r.2.map fun e => (s.now, e))
  | .work report =>
    match s.h.scanner with
    | some i =>
      let r := s.h.step (.work i (some report))
      (s.settle T r.1, r.2.map fun e => (s.now, e))
    | none => (s, [])

/-- A history (a sequence of steps; cmd_handler.rs:188-210). -/
def Sys.run (T : Timing) (s : Sys) : List Op → Sys × List (Nat × HEv)
  | [] => (s, [])
  | op :: ops =>
    let r := s.step T op
    let r2 := r.1.run T ops
    (r2.1, r.2 ++ r2.2)

/-- What `update_service_table` does with the service table for a report (context.rs, config.rs:1085-1112, as in
`Verif.Config.World.update`): all the services are added and then the visible ones are determined. The wall clock does not
change meanwhile. -/
def reportOps (services : List Service) (now : Int64) : List TOp := services.map (.add now ·) ++ [.updateActive now]

/-- The operations on the service table that the scans of a history lead to (cmd_handler.rs:243-248). `found` gives the services
of a report, `clock` the wall clock, in seconds. A reset of the table is not among them. -/
def tableOps (found : Nat → List Service) (clock : Nat → Int64) (evs : List (Nat × HEv)) : List TOp :=
  evs.flatMap fun e =>
    match e.2 with
    | .published _ report => reportOps (found report) (clock e.1)
    | _ => []

end Verif.Cadence
