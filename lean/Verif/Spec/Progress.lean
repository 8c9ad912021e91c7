import Verif.Spec.Tunnel
/-!
# When nothing happens any more

A connection in which every task waits for something outside the program, and what the services' connections
answered last.
-/
namespace Verif.Spec.Progress
open Verif Verif.Session Verif.Client Verif.Spec.Tunnel

/-- Every task of the connection waits, and no wake-up is on its way: the task sending messages to the server was
told "pending" and was woken neither by the client protocol nor by the session manager or a session; the task
of every open session still waits for its connection, or was told "pending" and was not woken since. -/
def Waiting (c : Cli) : Prop :=
  c.idle = true ∧ c.mgr.idle = true ∧
  ∀ sid s, c.mgr.sessions.get sid = some s → s.phase = .connecting ∨ s.ghost.transIdle = true

/-- The answers (reading, writing) of the connection with the service of session `sid` when it was polled. -/
def answers (sid : UInt32) : Seen → Option (ReadRes × WriteRes)
  | .io s (.transport rd wr) => if s = sid then some (rd, wr) else none
  | _ => none

/-- The latest of these answers. -/
def lastAnswers (sid : UInt32) (r : List Seen) : Option (ReadRes × WriteRes) :=
  (r.filterMap (answers sid)).getLast?

end Verif.Spec.Progress
