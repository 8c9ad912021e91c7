import Verif.Spec.Teardown
/-!
# How many connections to services were asked for
-/
namespace Verif.Spec.Count
open Verif Verif.Session Verif.Teardown Verif.Spec.Teardown

/-- The times at which connections to services were requested. -/
def requests (r : List (Nat × Act)) : List Nat :=
  r.filterMap fun e => match e.2 with | .opened _ => some e.1 | _ => none

/-- The number of open sessions. -/
def openCount (w : World) : Nat := match w.ctx with | some m => m.len | none => 0

end Verif.Spec.Count
