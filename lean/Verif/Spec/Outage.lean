import Verif.Spec.Silence
import Verif.Spec.Uplink
import Verif.Model.Uplink
/-!
# Vocabulary: a call of `connect` in time
-/
namespace Verif.Spec.Outage
open Verif Verif.Client Verif.Uplink Verif.Spec.Client Verif.Spec.Silence Verif.Spec.Uplink

/-- The time of the last timer event, or `t` if there was none. -/
def lastTick : Nat → List COp → Nat
  | t, [] => t
  | _, .tick env :: ops => lastTick env.now ops
  | t, _ :: ops => lastTick t ops

/-- The call that starts at the time `s` and lasts for `d` is scheduled with a delay of at most `gap`: the protocol starts soon
after the connection is made; the clock does not run backwards; the timer fires at least every `gap`, until the call returns;
and nothing happens any more after its end. -/
structure Timed (cfg : Cfg) (k : Call) (s gap d : Nat) : Prop where
  up : ∀ i t, Tls.connect k.net = (.connected i, t) → k.env.now ≤ s + t * ms + gap
  clock : Monotone k.env.now k.ops
  timer : Ticking gap k.env.now k.ops
  ending : s + d ≤ lastTick k.env.now k.ops + gap
  last : ∀ a op b, k.ops = a ++ op :: b → ∀ r, (({ k with ops := a } : Call).hist cfg).1 ≠ .over r

/-- No acknowledgement of the server is accepted. -/
def Mute (cfg : Cfg) (k : Call) : Prop := acked (k.hist cfg).2 = []

/-- The server is out of reach, or it never acknowledges anything (and does not refuse the client either). -/
structure Out (cfg : Cfg) (k : Call) : Prop where
  tls : k.tls = true
  silent : (∀ j t, Tls.connect k.net ≠ (.connected j, t)) ∨ Mute cfg k
  version : ¬ Answers badVersion k.chunks.flatten
  known : ¬ Answers notAuthorized k.chunks.flatten

/-- From the time `t0` on the server acknowledges nothing: the clock readings before are at most `t0`. -/
def SilentFrom (cfg : Cfg) (k : Call) (t0 : Nat) : Prop :=
  ∃ a b, k.ops = a ++ b ∧ (∀ x ∈ k.env.now :: times a, x ≤ t0) ∧ acked (((({ k with ops := a } : Call).hist cfg).1.run b).2) = []

end Verif.Spec.Outage
