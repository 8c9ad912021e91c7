import Verif.Spec.Client
/-!
# Specification: where the identity of a client shows

Two clients are compared that are told different identities (UUID, key, MAC address, extended information) and see the
same server, services, clock and table.
-/
namespace Verif.Spec.Secrecy
open Verif Verif.Control Verif.Client Verif.Spec.Client

/-- Two clients that differ at most in their identity. -/
def SameSettings (a b : Cfg) : Prop := a.gateway = b.gateway ∧ a.diagnostic = b.diagnostic

/-- Two clients that differ at most in their key. -/
def SameButKey (a b : Cfg) : Prop :=
  SameSettings a b ∧ a.uuid = b.uuid ∧ a.mac = b.mac ∧ a.info = b.info

/-- The events of the two clients are the same but for the content of the message `m` or `m'`, which is made at the
start (time `t`) and handed to the transport at most once. -/
def SameButOne (t : Nat) (m m' : ControlMessage) (es es' : List NEv) : Prop :=
  (∃ r, es = .ev (.queued t m) :: r ∧ es' = .ev (.queued t m') :: r) ∨
  (∃ r s, es = .ev (.queued t m) :: r ++ .sent m.toArrow :: s ∧ es' = .ev (.queued t m') :: r ++ .sent m'.toArrow :: s)

/-- The connections are in the same phase and, if they have ended, ended in the same way. -/
def SameEnd : Conn → Conn → Prop
  | .live _, .live _ => True
  | .closing r, .closing r' => r = r'
  | .over r, .over r' => r = r'
  | _, _ => False

/-- Two byte strings that differ at most in the bytes from `i` to `j - 1`. -/
def DifferWithin (i j : Nat) (a b : Bytes) : Prop :=
  a.length = b.length ∧ a.take i = b.take i ∧ a.drop j = b.drop j

end Verif.Spec.Secrecy
