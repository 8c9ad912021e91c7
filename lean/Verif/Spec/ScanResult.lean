import Verif.Model.Control
/-!
# Specification of scan results

A scan result is a collection of facts. `Facts.Flag`, `Facts.Port` and so on say what a collection of facts says about
a host; they do not mention the data structure of the program.
-/
namespace Verif.Spec.Scan
open Verif

/-- Something that was reported about the network. -/
inductive Fact where
  /-- the host was seen, by the methods given by the flag bits -/
  | host (mac : MacAddr) (ip : IpAddr) (flags : UInt8)
  /-- the host has an open port -/
  | port (mac : MacAddr) (ip : IpAddr) (port : UInt16)
  /-- there is a service -/
  | service (s : Service)
deriving DecidableEq

/-- Some fact is about the host. -/
def Seen (fs : List Fact) (mac : MacAddr) (ip : IpAddr) : Prop :=
  (∃ fl, Fact.host mac ip fl ∈ fs) ∨ ∃ p, Fact.port mac ip p ∈ fs

/-- Bit `i` of the flags was reported for the host. -/
def FlagBit (fs : List Fact) (mac : MacAddr) (ip : IpAddr) (i : Nat) : Prop :=
  ∃ fl : UInt8, Fact.host mac ip fl ∈ fs ∧ fl.toNat.testBit i = true

/-- The port was reported for the host. -/
def PortOpen (fs : List Fact) (mac : MacAddr) (ip : IpAddr) (p : UInt16) : Prop := Fact.port mac ip p ∈ fs

/-- The service was reported, and no service with the same identifier was reported later. -/
def LastService (fs : List Fact) (s : Service) : Prop :=
  ∃ a b, fs = a ++ Fact.service s :: b ∧ ∀ s', Fact.service s' ∈ b → s'.toIdentifier ≠ s.toIdentifier

/-- The port `p` comes before the port `q` in the list of preferred ports; a port that is not in the list comes last. -/
def Preferred (ports : List UInt16) (p q : UInt16) : Prop :=
  ∃ a b, ports = a ++ p :: b ∧ q ∉ a ∧ q ≠ p

end Verif.Spec.Scan
