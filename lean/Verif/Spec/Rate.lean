import Verif.Spec.Reconnect
/-!
# How often servers are contacted
-/
namespace Verif.Spec.Rate
open Verif Verif.Client Verif.Reconnect Verif.Spec.Reconnect

/-- The number of connection attempts that start in the `len` units of time from `x` on. -/
def attemptsIn (x len : Nat) (tr : List REv) : Nat :=
  (attempts tr).countP fun a => x ≤ a.1 ∧ a.1 < x + len

/-- Is this the result of a connection that a server ended with a redirect? -/
def isRedirect : ConnRes → Bool
  | .redirect _ => true
  | .error _ => false

/-- The number of redirects received in that time. -/
def redirectsIn (x len : Nat) (tr : List REv) : Nat :=
  (results tr).countP fun r => x ≤ r.1 ∧ r.1 < x + len ∧ isRedirect r.2 = true

/-- The number of connections refused because the client is not (yet) authorized. -/
def refusals (tr : List REv) : Nat :=
  (results tr).countP fun r => r.2 = .error .unauthorized

end Verif.Spec.Rate
