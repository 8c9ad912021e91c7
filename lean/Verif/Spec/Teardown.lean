import Verif.Model.Teardown
/-!
# What it means for the connections to services to be over
-/
namespace Verif.Spec.Teardown
open Verif Verif.Session Verif.Teardown

/-- Every session of a connection to the server, open or removed, whose task may still do something. -/
def sessions (w : World) : List Sess :=
  (match w.ctx with | some m => m.sessions.map (·.2) | none => []) ++ w.tasks.map (·.sess)

/-- No connection to a service is in use. -/
def NoneInUse (w : World) : Prop := ∀ s ∈ sessions w, s.phase ≠ .running

/-- No connection to a service is in use or being established. -/
def NoneLeft (w : World) : Prop := ∀ s ∈ sessions w, s.phase = .done

/-- Bytes exchanged with a service. -/
def isTraffic : Act → Bool
  | .read _ => true
  | .wrote _ => true
  | .opened _ => false

/-- `w` can be reached, with this record, in a connection to the server, if no task is kept from running for more
than `lag` milliseconds. -/
def Reach (lag : Nat) (record : List (Nat × Act)) (w : World) : Prop :=
  ∃ gateway window counter, Steps lag (World.new gateway window counter) record w

end Verif.Spec.Teardown
