import Verif.Spec.Client
/-!
# Counting what happens on a connection

For a connection in state `s`, what the next step `op` adds to a number of counters, and the sums over a history.
-/
namespace Verif.Spec.Busy
open Verif Verif.Session Verif.Client

/-- Sum of a counter over a history from state `s` on. -/
def total (f : Conn → COp → Nat) (s : Conn) : List COp → Nat
  | [] => 0
  | op :: ops => f s op + total f (s.step op).1 ops

/-- The task sending messages to the server is polled. -/
def polled : Conn → COp → Nat
  | .live _, .poll _ _ => 1
  | _, _ => 0

/-- It is polled although it waits and nothing in the program woke it: something outside did. -/
def roused : Conn → COp → Nat
  | .live c, .poll _ _ => if c.idle && c.mgr.idle then 1 else 0
  | _, _ => 0

/-- Messages of the server that are handled. -/
def handled (s : Conn) (op : COp) : Nat :=
  ((s.step op).2.filter fun | .ev (.got _ _) => true | _ => false).length

/-- Timer events. -/
def ticked : Conn → COp → Nat
  | .live _, .tick _ => 1
  | _, _ => 0

/-- The open session with this id. -/
def session : Conn → UInt32 → Option Sess
  | .live c, sid => c.mgr.sessions.get sid
  | _, _ => none

/-- What happens between session `sid` and its service: the connection fails, bytes are read, bytes are written, the
connection ends. A poll that finds nothing to read and nothing to write adds nothing. -/
def servicedAt (sid : UInt32) (s : Conn) : COp → Nat
  | .io x o => if x = sid then
      match session s sid with
      | some t => (t.step o.op).2.length
      | none => 0
    else 0
  | _ => 0

/-- The same for whatever session. -/
def serviced (s : Conn) : COp → Nat
  | .io x o => servicedAt x s (.io x o)
  | _ => 0

/-- The task of session `sid`, driving the connection with its service, is polled. -/
def driven (sid : UInt32) (s : Conn) : COp → Nat
  | .io x (.transport _ _) =>
    if x = sid ∧ (session s sid).map (·.phase) = some .running then 1 else 0
  | _ => 0

/-- It is polled although it waits and nothing in the program woke it: the service did. -/
def rousedAt (sid : UInt32) (s : Conn) : COp → Nat
  | .io x (.transport _ _) =>
    if x = sid ∧ (session s sid).map (fun t => (t.phase, t.ghost.transIdle)) = some (.running, true) then 1 else 0
  | _ => 0

/-- The connection of session `sid` with its service is made. -/
def connectedAt (sid : UInt32) (s : Conn) : COp → Nat
  | .io x .connected => if x = sid ∧ (session s sid).isSome then 1 else 0
  | _ => 0

end Verif.Spec.Busy
