import Verif.Model.Reconnect
/-!
# Vocabulary for the properties of the reconnecting task
-/
namespace Verif.Spec.Reconnect
open Verif Verif.Client Verif.Reconnect

/-- The connection attempts: when and to which address. -/
def attempts (tr : List REv) : List (Nat × Bytes) :=
  tr.filterMap fun | .attempt t a => some (t, a) | _ => none

/-- The results of connections: when and which. -/
def results (tr : List REv) : List (Nat × ConnRes) :=
  tr.filterMap fun | .result t r => some (t, r) | _ => none

/-- The connection states set, in order. -/
def states (tr : List REv) : List ConnState :=
  tr.filterMap fun | .state _ s => some s | _ => none

/-- The exit codes. -/
def exits (tr : List REv) : List Nat :=
  tr.filterMap fun | .exit c => some c | _ => none

/-- When the next attempt is due, if there is one: `s` is when the attempt started, `e` when its result
was processed, `w` the end of the pairing window; all in the unit of time in which `sec` is
a second. -/
def due (w s e : Nat) : ConnRes → Option Nat
  | .redirect _ => some e
  | .error .unsupportedVersion => none
  | .error .unauthorized =>
    if w ≤ e then none
    else if e + 600 * sec < w then some (e + 10 * sec)
    else some (e + 30 * sec)
  | .error _ =>
    if e + sec / 2 < s + 60 * sec then some (s + 60 * sec)
    else some e

/-- Where the next attempt goes. -/
def target (default : Bytes) : ConnRes → Bytes
  | .redirect a => a
  | .error _ => default

/-- The states an attempt with this result goes through. -/
def statesOf : ConnRes → List ConnState
  | .redirect _ => [.connected]
  | .error .unauthorized => [.connected, .unauthorized]
  | .error _ => [.connected, .disconnected]

end Verif.Spec.Reconnect
