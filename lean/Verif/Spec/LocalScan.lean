import Verif.Model.LocalScan
import Verif.Spec.RawScan
import Verif.Spec.Discovery
/-!
# Who is contacted by a scan, independently of the code
-/
namespace Verif.Spec.LocalScan
open Verif Verif.Raw Verif.Spec Verif.Spec.Raw Verif.LocalScan Verif.Discovery

/-- The host has answered on the interface: an ARP packet from it was captured, or an IPv4 packet from it whose address is
one of the network of the interface. -/
def Answered (x : Iface × Act) (host : MacAddr × Ip4) : Prop :=
  (∃ f ∈ captured x.2.arp.rounds, IsArp f ∧ ArpSender f host) ∨
  (∃ f ∈ captured x.2.icmp.rounds, IsIp f ∧ IpSender f host ∧ InNetwork x.1.dev (ipNat host.2))

/-- The port has answered on the interface: a TCP segment from it was captured. -/
def PortAnswered (x : Iface × Act) (mac : MacAddr) (addr : SocketAddr) : Prop :=
  ∃ f ∈ captured x.2.tcp.rounds, IsIp f ∧ ipProtocol f = 6 ∧
    ∃ ip : Ip4, TcpSender f (mac, ip, addr.port) ∧ ip.toIp = addr.ip

/-- The interfaces that may be scanned. -/
def Permitted (whitelist : List Bytes) (x : Iface × Act) : Prop := whitelist ≠ [] → x.1.name ∈ whitelist

/-- The ports that are looked for. -/
def Candidate (p : UInt16) : Prop :=
  p ∈ Spec.Discovery.rtspCandidates ∨ p ∈ Spec.Discovery.httpCandidates

/-- The address a request goes to. -/
def target : Probe → MacAddr × SocketAddr
  | .options mac addr => (mac, addr)
  | .root mac addr => (mac, addr)
  | .rtspPath mac addr _ => (mac, addr)
  | .mjpegPath mac addr _ => (mac, addr)

/-- The IPv4 address a frame asks for or goes to: the target address of an ARP packet (RFC 826), the destination of an
IPv4 packet (RFC 791). -/
def destination (f : Bytes) : Nat := if field f 12 2 = 0x0806 then field f 38 4 else field f 30 4

/-- The mask of the interface consists of a number of ones followed by zeros. -/
def PrefixMask (dev : EtherDev) : Prop := ∃ m, m ≤ 32 ∧ ipNat dev.mask = 2 ^ 32 - 2 ^ m

/-- The senders of all ARP packets captured by the ARP scan and of all TCP segments captured by the TCP scan are in the
network of the interface. -/
def Honest (x : Iface × Act) : Prop :=
  (∀ f ∈ captured x.2.arp.rounds, IsArp f → ∀ host, ArpSender f host → InNetwork x.1.dev (ipNat host.2)) ∧
  (∀ f ∈ captured x.2.tcp.rounds, IsIp f → ipProtocol f = 6 → InNetwork x.1.dev (field f 26 4))

/-- The address is in the network of an interface that may be scanned. -/
def Local (whitelist : List Bytes) (ifaces : List (Iface × Act)) (ip : IpAddr) : Prop :=
  ∃ x ∈ ifaces, Permitted whitelist x ∧ ∃ a : Ip4, a.toIp = ip ∧ InNetwork x.1.dev (ipNat a)

end Verif.Spec.LocalScan
