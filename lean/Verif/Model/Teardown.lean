import Verif.Model.SessionManager
/-!
# Model of the end of a connection to the server

Source: /repo/src/net/arrow/mod.rs lines 571-722 (`ArrowClient`, its watchdog task and `connect`) and
/repo/src/net/arrow/session.rs lines 343-476 and 659-671 (the tasks of the sessions, `Drop for SessionManager`).

The model follows one connection from the moment the connection to the server is established. It keeps who holds
the shared context (the `ArrowClient` owned by the future of `connect`, and the watchdog task), when the context is
dropped, and the task of every session, also after the session was removed from the session manager. What the
server says and what the services do is arbitrary: every operation of the session manager may happen at any time as
long as the future of `connect` is in the phase in which it polls the client and the client is not closed.

Time is in milliseconds. It passes by an explicit step. A task that has to run (a timer of it expired, it was woken,
a future it waits for is ready) runs at most `lag` later; this is the only assumption about the runtime and it is
stated by `World.mayPass`. Nothing is assumed about the order of tasks that can run.

Left out: the protocol (any message, in any order, is allowed), the content of `time_event`, except that it may fail.
-/
namespace Verif.Teardown
open Verif.Session

/-- Pause of the watchdog (mod.rs:598). -/
def dogPeriod : Nat := 1000

/-- Limit of the orderly shutdown of the connection to the server (mod.rs:52 and 717). -/
def shutdownLimit : Nat := 20000

/-- Limit of connecting to a service (session.rs:44 and 439). -/
def connectLimit : Nat := 20000

/-- The task of a session that is no longer in the session manager (session.rs:375-383): its session, the time the
task was started and the time the session left the manager. -/
structure Task where
  sess : Sess
  start : Nat
  since : Nat
deriving DecidableEq

/-- What the future of `connect` is doing (mod.rs:703-722): it waits for the client or the watchdog (703-715), it
shuts the connection down since some time (717), or it is gone since some time: it returned, or it was dropped by
`abort` of the task it runs in. -/
inductive Stage where
  | sending
  | closing (since : Nat)
  | dropped (at_ : Nat)
deriving DecidableEq, Repr

/-- One connection to the server (mod.rs:571-722). `ctx` is the session manager in the shared context, until the
context is dropped; `starts` are the times the open sessions were opened; `tasks` are the tasks of the sessions that
were removed; `closedAt` is the time since when the context `is_closed` (mod.rs:160-162: the end of the input, a
redirect, or the end of the future of `connect`); `dog` is the time the current pause of
the watchdog ends, as long as the watchdog runs; `dogEnd` is the time it ended. -/
structure World where
  now : Nat
  ctx : Option Mgr
  starts : UInt32 → Nat
  tasks : List Task
  closedAt : Option Nat
  dog : Option Nat
  dogEnd : Nat
  stage : Stage

/-- `ArrowClient::new` (mod.rs:583-614), at time 0. -/
def World.new (gateway : Bool) (window counter : Nat) : World :=
  { now := 0, ctx := some (.new gateway window counter), starts := fun _ => 0, tasks := [],
    closedAt := none, dog := some dogPeriod, dogEnd := 0, stage := .sending }


/-- Something the outside can see: a connection to a service was requested, or bytes were exchanged with a service (session.rs:225-308, 350-386). -/
inductive Act where
  | opened (sid : UInt32)
  | read (bs : Bytes)
  | wrote (bs : Bytes)
deriving DecidableEq

/-- The traffic with a service among the observations of a session (session.rs:225-308). -/
def traffic (os : List Obs) : List Act :=
  os.filterMap fun
    | .read bs => some (.read bs)
    | .wrote bs => some (.wrote bs)
    | _ => none

/-- Sessions opened by an operation of the manager (session.rs:527-531). -/
def openings (evs : List Ev) : List UInt32 :=
  evs.filterMap fun | .opened sid _ _ _ _ => some sid | _ => none

/-- The sessions that leave the manager `m` by an event, as they are afterwards: closed by the server
(session.rs:574-584) or ended (session.rs:693-722: dropped after the last `take`). -/
def leaving (m : Mgr) : Ev → List (UInt32 × Sess)
  | .hungUp sid => ((m.sessions.get sid).map fun s => (sid, (s.step .close).1)).toList
  | .ended sid _ => ((m.sessions.get sid).map fun s => (sid, (s.step (.take m.counter)).1)).toList
  | _ => []

/-- `SessionManager` operations come from the client, which is polled only by `send_all` (mod.rs:708) and does
nothing once it is closed (mod.rs:274-276, 553-554); the tasks of sessions run on their own, and the watchdog takes
message ids (`time_event`, mod.rs:604). -/
def needsClient : MOp → Bool
  | .io _ _ => false
  | .newId => false
  | _ => true

/-- The bytes exchanged by an operation of the manager (only the tasks of sessions do that; session.rs:456-475). -/
def mgrTraffic (m : Mgr) : MOp → List Act
  | .io sid o =>
    match m.sessions.get sid with
    | some s => traffic (s.step o.op).2
    | none => []
  | _ => []

/-- An operation of the session manager, with the tasks of the sessions that leave it (session.rs:527-735). -/
def World.manage (w : World) (m : Mgr) (op : MOp) : World × List Act :=
  let r := m.step op
  ({ w with
      ctx := some r.1
      starts := fun sid => if sid ∈ openings r.2.1 then w.now else w.starts sid
      tasks := w.tasks ++ (r.2.1.flatMap (leaving m)).map fun p => ⟨p.2, w.starts p.1, w.now⟩ },
    (openings r.2.1).map .opened ++ mgrTraffic m op)

/-- The task of a removed session runs (session.rs:375-383, 437-475). The transport is polled in the poll in which
the connection is established (session.rs:379-380). -/
def Task.run (t : Task) (o : Io) : Task × List Act :=
  let r := t.sess.step o.op
  match o with
  | .connected =>
    let r2 := r.1.step (.transport .pending .pending)
    ({ t with sess := r2.1 }, traffic (r.2 ++ r2.2))
  | _ => ({ t with sess := r.1 }, traffic r.2)

/-- The last holder of the context is gone: the context and with it the session manager is dropped, which closes all
sessions (session.rs:659-671). -/
def World.dropCtx (w : World) : World :=
  match w.ctx with
  | none => w
  | some m =>
    { w with
      ctx := none
      tasks := w.tasks ++ m.sessions.map fun p => ⟨(p.2.step .close).1, w.starts p.1, w.now⟩ }

/-- `tokio::time::sleep(1 s)` is over and the watchdog looks at the context (mod.rs:598-605). -/
def World.tick (w : World) : World :=
  match w.closedAt with
  | none => { w with dog := some (w.now + dogPeriod) }
  | some _ =>
    let w := { w with dog := none, dogEnd := w.now }
    match w.stage with
    | .dropped _ => w.dropCtx
    | _ => w

/-- The future of `connect` is gone: `Drop for ArrowClient` marks the context as closed (mod.rs:622-630); the context
itself is dropped if the watchdog does not hold it any more. -/
def World.drop (w : World) : World :=
  let w := { w with closedAt := some (w.closedAt.getD w.now), stage := .dropped w.now }
  if w.dog.isNone then w.dropCtx else w

/-- May the clock go on to time `t`? Only if no task is kept from running for more than `lag`: the watchdog after its
pause (mod.rs:598), the future of `connect` after the end of the watchdog (mod.rs:710) and after the shutdown limit
(mod.rs:717), the connector of a session after its limit (session.rs:439) and the transport of a removed session as
long as it is woken (session.rs:456-475). -/
def World.mayPass (lag : Nat) (w : World) (t : Nat) : Prop :=
  (∀ due, w.dog = some due → t ≤ due + lag) ∧
  (w.stage = .sending → w.dog = none → t ≤ w.dogEnd + lag) ∧
  (∀ t0, w.stage = .closing t0 → t ≤ t0 + shutdownLimit + lag) ∧
  (∀ m, w.ctx = some m → ∀ p ∈ m.sessions, p.2.phase = .connecting →
    t ≤ w.starts p.1 + connectLimit + lag) ∧
  (∀ k ∈ w.tasks, k.sess.phase = .connecting → t ≤ k.start + connectLimit + lag) ∧
  (∀ k ∈ w.tasks, k.sess.phase = .running → k.sess.ghost.transIdle = false → t ≤ k.since + lag)

/-- One step, with what the outside sees (mod.rs:571-722 by the definitions above). -/
inductive Step (lag : Nat) : World → List Act → World → Prop where
  | pass (w : World) (d : Nat) (h : w.mayPass lag (w.now + d)) :
      Step lag w [] { w with now := w.now + d }
  | mgr (w : World) (m : Mgr) (op : MOp) (hm : w.ctx = some m)
      (hs : needsClient op = true → w.stage = .sending ∧ w.closedAt = none) :
      Step lag w (w.manage m op).2 (w.manage m op).1
  | task (w : World) (pre post : List Task) (t : Task) (o : Io) (ht : w.tasks = pre ++ t :: post) :
      Step lag w (t.run o).2 { w with tasks := pre ++ (t.run o).1 :: post }
  | markClosed (w : World) (hs : w.stage = .sending) :
      Step lag w [] { w with closedAt := some (w.closedAt.getD w.now) }
  | tick (w : World) (due : Nat) (hd : w.dog = some due) (ht : due ≤ w.now) : Step lag w [] w.tick
  | tickFails (w : World) (due : Nat) (hd : w.dog = some due) (ht : due ≤ w.now) (hc : w.closedAt = none) :
      Step lag w [] { w with dog := none, dogEnd := w.now }
  | over (w : World) (hs : w.stage = .sending) (hc : w.closedAt.isSome = true) :
      Step lag w [] { w with stage := .closing w.now }
  | drop (w : World) (hs : ∀ t, w.stage ≠ .dropped t) : Step lag w [] w.drop

/-- Any number of steps; the record has everything seen, with the time it was seen (mod.rs:571-722). -/
inductive Steps (lag : Nat) : World → List (Nat × Act) → World → Prop where
  | refl (w : World) : Steps lag w [] w
  | step {w a w1 b w2} : Steps lag w a w1 → Step lag w1 b w2 → Steps lag w (a ++ b.map (w1.now, ·)) w2

end Verif.Teardown
