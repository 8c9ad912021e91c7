import Verif.Model.Reconnect
/-!
# Model of the shared application context: state changes and event listeners

Source: /repo/src/context.rs lines 55-345. The mutex makes each critical section one step; between them
other threads run. Listeners are numbered. A thread makes one call at a time. Listeners do not call back
into the context here (they could: the lock is not held while they run). A panic inside the lock would
poison it (every later call panics); in release builds a panic ends the process.
-/
namespace Verif.AppContext
open Verif.Reconnect (ConnState)

/-- What `set_connection_state` and `set_scanning` change (context.rs:249-268, 317-336). -/
inductive Change where
  | conn (s : ConnState)
  | scan (b : Bool)
deriving DecidableEq

/-- A call of `set_connection_state` or `set_scanning` that holds the listeners it took: those not told
yet and those told (context.rs:249-268, 317-336). -/
structure Call where
  change : Change
  todo : List Nat
  told : List Nat

/-- `ApplicationContextData` (context.rs:65-72), as far as it concerns the listeners, the number of the next
listener, and the calls in flight, per thread. -/
structure App where
  conn : ConnState
  scanning : Bool
  listeners : List Nat
  next : Nat
  calls : Nat → Option Call

/-- `ApplicationContextData::new` (context.rs:76-85). -/
def App.new : App :=
  { conn := .disconnected, scanning := false, listeners := [], next := 0, calls := fun _ => none }

/-- `is_scanning`, `get_connection_state` compared with the new value (context.rs:251-253, 320-322). -/
def App.same (a : App) : Change → Bool
  | .conn s => s = a.conn
  | .scan b => b = a.scanning

/-- `data.set_connection_state(state)`, `data.set_scanning(scanning)` (context.rs:104-106, 129-133). Saving
the connection state to a file is in `Verif.Storage.World`. -/
def App.apply (a : App) : Change → App
  | .conn s => { a with conn := s }
  | .scan b => { a with scanning := b }

/-- Replace the call of a thread (bookkeeping of the model for context.rs:249-268, 317-336). -/
def App.setCall (a : App) (tid : Nat) (c : Option Call) : App :=
  { a with calls := fun t => if t = tid then c else a.calls t }

/-- Steps of the threads (context.rs:249-268, 317-355). -/
inductive AOp where
  /-- the first critical section of `set_scanning` (248-260) or `set_connection_state` (317-329) -/
  | set (tid : Nat) (c : Change)
  /-- the next listener is told (262-264, 331-333) -/
  | tell (tid : Nat)
  /-- the second critical section: the listeners are put back (266, 335 with 144-153) -/
  | finish (tid : Nat)
  /-- `add_event_listener` (136-141) -/
  | add
deriving DecidableEq

/-- What happens (context.rs:58-62: what a listener is told). -/
inductive AEv where
  /-- a call changed the state -/
  | changed (c : Change)
  /-- a listener was told -/
  | told (l : Nat) (c : Change)
  /-- a call that changed the state is over -/
  | finished
  | added (l : Nat)
deriving DecidableEq

/-- One step (context.rs:249-268, 317-355, by the definitions above). -/
def App.step (a : App) : AOp → App × List AEv
  | .set tid c =>
    match a.calls tid with
    | some _ => (a, [])
    | none =>
      if a.same c then (a, [])
      else ({ a.apply c with listeners := [] }.setCall tid (some ⟨c, a.listeners, []⟩), [.changed c])
  | .tell tid =>
    match a.calls tid with
    | some ⟨c, l :: ls, d⟩ => (a.setCall tid (some ⟨c, ls, d ++ [l]⟩), [.told l c])
    | _ => (a, [])
  | .finish tid =>
    match a.calls tid with
    | some ⟨_, [], d⟩ => ({ a with listeners := d ++ a.listeners }.setCall tid none, [.finished])
    | _ => (a, [])
  | .add => ({ a with listeners := a.listeners ++ [a.next], next := a.next + 1 }, [.added a.next])

/-- A history (a sequence of steps; context.rs:163-165). -/
def App.run (a : App) : List AOp → App × List AEv
  | [] => (a, [])
  | op :: ops =>
    let r := a.step op
    let r2 := r.1.run ops
    (r2.1, r.2 ++ r2.2)

end Verif.AppContext
