import Verif.Spec.Client
/-!
# Specification: a server that is silent, and what the server knows
-/
namespace Verif.Spec.Silence
open Verif Verif.Client

/-- The timer of the connection fires: from the time `t` on, two timer events are at most `gap` apart. -/
def Ticking (gap : Nat) : Nat → List COp → Prop
  | _, [] => True
  | t, .tick env :: ops => env.now ≤ t + gap ∧ Ticking gap env.now ops
  | t, _ :: ops => Ticking gap t ops

end Verif.Spec.Silence
