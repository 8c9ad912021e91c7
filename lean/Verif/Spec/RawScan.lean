import Verif.Model.RawScan
import Verif.Spec.RawNet
/-!
# Network scans on the wire, independently of the code
-/
namespace Verif.Spec.Raw
open Verif Verif.Spec Verif.Raw

/-- The four bytes of an address given as a number. -/
def ipBytes (n : Nat) : Bytes :=
  [UInt8.ofNat (n / 16777216), UInt8.ofNat (n / 65536), UInt8.ofNat (n / 256), UInt8.ofNat n]

/-- The network address: the bits of the mask. -/
def networkAddr (dev : EtherDev) : Nat := ipNat dev.ip &&& ipNat dev.mask

/-- The broadcast address: all other bits are set. -/
def broadcastAddr (dev : EtherDev) : Nat := ipNat dev.ip ||| (4294967295 - ipNat dev.mask)

/-- The addresses strictly between the two, in ascending order. -/
def hostAddrs (dev : EtherDev) : List Nat :=
  List.range' (networkAddr dev + 1) (broadcastAddr dev - networkAddr dev - 1)

/-- An ARP request for the address `target`, sent to everyone (RFC 826). -/
def arpRequest (dev : EtherDev) (target : Nat) : Bytes :=
  [0xff, 0xff, 0xff, 0xff, 0xff, 0xff] ++ [dev.mac.b0, dev.mac.b1, dev.mac.b2, dev.mac.b3, dev.mac.b4, dev.mac.b5] ++
  [0x08, 0x06] ++
  [0, 1, 0x08, 0x00, 6, 4, 0, 1] ++ [dev.mac.b0, dev.mac.b1, dev.mac.b2, dev.mac.b3, dev.mac.b4, dev.mac.b5] ++
  [dev.ip.a, dev.ip.b, dev.ip.c, dev.ip.d] ++ [0, 0, 0, 0, 0, 0] ++ ipBytes target

/-- An Ethernet frame with an IPv4 packet without options (RFC 791). -/
structure IsIpFrame (dev : EtherDev) (dstMac : Bytes) (dstIp : Bytes) (protocol : Nat) (f : Bytes) : Prop where
  dstMac : slice f 0 6 = dstMac
  srcMac : slice f 6 6 = [dev.mac.b0, dev.mac.b1, dev.mac.b2, dev.mac.b3, dev.mac.b4, dev.mac.b5]
  etherType : field f 12 2 = 0x0800
  versionAndLength : field f 14 1 = 0x45
  totalLength : field f 16 2 = f.length - 14
  notFragmented : field f 20 2 = 0
  ttl : field f 22 1 = 64
  protocol : field f 23 1 = protocol
  checksum : ChecksumOk (slice f 14 20)
  src : slice f 26 4 = [dev.ip.a, dev.ip.b, dev.ip.c, dev.ip.d]
  dst : slice f 30 4 = dstIp

/-- An ICMP echo request without data (RFC 792) for the address `target`, sent to everyone. -/
structure IsEchoRequest (dev : EtherDev) (target : Nat) (f : Bytes) : Prop where
  ip : IsIpFrame dev [0xff, 0xff, 0xff, 0xff, 0xff, 0xff] (ipBytes target) 1 f
  length : f.length = 42
  type : field f 34 1 = 8
  code : field f 35 1 = 0
  identifier : field f 38 2 = target / 65536
  sequence : field f 40 2 = target % 256
  checksum : ChecksumOk (slice f 34 8)

/-- A TCP segment (RFC 793) with nothing but the flag SYN, for a port of a host. -/
structure IsSyn (dev : EtherDev) (host : MacAddr × Ip4) (port : UInt16) (f : Bytes) : Prop where
  ip : IsIpFrame dev [host.1.b0, host.1.b1, host.1.b2, host.1.b3, host.1.b4, host.1.b5]
    [host.2.a, host.2.b, host.2.c, host.2.d] 6 f
  length : f.length = 54
  srcPort : field f 34 2 = 61234
  dstPort : field f 36 2 = port.toNat
  headerLength : field f 46 1 = 0x50
  flags : field f 47 1 = 2
  checksum : ChecksumOk (pseudo dev.ip host.2 6 (slice f 34 20) ++ slice f 34 20)

/-- The ports of a range. -/
def portsOf : PortRange → List UInt16
  | .single p => [p]
  | .range a b => (List.range' a.toNat (b.toNat - a.toNat)).map UInt16.ofNat

/-- A range the scanner can enumerate: it is not empty and not the single port 65535. -/
def Usable (r : PortRange) : Prop :=
  match r with
  | .single p => p ≠ 65535
  | .range a b => a < b

instance (r : PortRange) : Decidable (Usable r) := by
  unfold Usable
  cases r <;> exact inferInstance

/-- The ranges in front of the first one that cannot be enumerated. -/
def usablePrefix (c : List PortRange) : List PortRange := c.takeWhile (fun r => decide (Usable r))

/-! ## Answers -/

/-- The frames that were captured. -/
def captured (rounds : List Round) : List Bytes :=
  rounds.filterMap (fun r => match r.read with
    | .packet data => some data
    | _ => none)

/-- When the last packet was captured. -/
def lastPacket (last : Nat) (rounds : List Round) : Nat :=
  rounds.foldl (fun t r => match r.read with
    | .packet _ => r.now
    | _ => t) last

/-- The listener ends with the round `r` that follows the rounds `before`: 20 seconds after the start or after 2 seconds of
silence. -/
def EndsAt (start last : Nat) (before : List Round) (r : Round) : Prop :=
  r.total > start + 20000 ∨ r.silence > lastPacket last (before ++ [r]) + 2000

/-- The listener opened the device, read without an error and ended with the round `r`, after the rounds `before`. -/
structure Ended (run : Run) (before : List Round) (r : Round) : Prop where
  opened : run.opened = true
  rounds : ∃ after, run.rounds = before ++ r :: after
  noError : ∀ x ∈ before ++ [r], x.read ≠ .error
  notBefore : ∀ b x a, before = b ++ x :: a → ¬ EndsAt run.start run.last b x
  ends : EndsAt run.start run.last before r

/-- A frame that kills the client. -/
def Deadly (f : Bytes) : Prop := BadIpHeaderLength f ∨ BadTcpDataOffset f

/-- A complete ARP packet. -/
def IsArp (f : Bytes) : Prop := HasType f 0x0806 ∧ ¬ Truncated f

/-- An ARP packet with addresses of Ethernet and IPv4. -/
def EtherArp (f : Bytes) : Prop := field f 18 1 = 6 ∧ field f 19 1 = 4

/-- The sender of an ARP packet. -/
def ArpSender (f : Bytes) (h : MacAddr × Ip4) : Prop :=
  slice f 22 6 = [h.1.b0, h.1.b1, h.1.b2, h.1.b3, h.1.b4, h.1.b5] ∧ slice f 28 4 = [h.2.a, h.2.b, h.2.c, h.2.d]

/-- A complete IPv4 packet. -/
def IsIp (f : Bytes) : Prop := HasType f 0x0800 ∧ ¬ Truncated f

/-- The sender of an IPv4 packet: the source addresses of the Ethernet frame and of the packet. -/
def IpSender (f : Bytes) (h : MacAddr × Ip4) : Prop :=
  slice f 6 6 = [h.1.b0, h.1.b1, h.1.b2, h.1.b3, h.1.b4, h.1.b5] ∧ slice f 26 4 = [h.2.a, h.2.b, h.2.c, h.2.d]

/-- The sender of a TCP segment with its port. -/
def TcpSender (f : Bytes) (h : MacAddr × Ip4 × UInt16) : Prop :=
  IpSender f (h.1, h.2.1) ∧ field f (ipPayload f) 2 = h.2.2.toNat

/-- The address belongs to the network of the device. -/
def InNetwork (dev : EtherDev) (x : Nat) : Prop := x &&& ipNat dev.mask = networkAddr dev

/-- The two lists have the same length and their members are related pairwise. -/
inductive Pairwise {α β : Type} (R : α → β → Prop) : List α → List β → Prop
  | nil : Pairwise R [] []
  | cons {a : α} {b : β} {l : List α} {l' : List β} (h : R a b) (hl : Pairwise R l l') : Pairwise R (a :: l) (b :: l')

end Verif.Spec.Raw
