import Verif.Model.RawNet
import Verif.Spec.Bytes
/-!
# Packets on the wire, independently of the code

RFC 1071 (checksum), RFC 826 (ARP), RFC 791 (IPv4), RFC 792 (ICMP), RFC 793 (TCP). The packet structures of the model are
shared, its functions are not.
-/
namespace Verif.Spec.Raw
open Verif Verif.Spec Verif.Raw

/-! ## RFC 1071 -/

/-- The 16-bit words of a byte string, padded with a zero byte if necessary. -/
def words16 : Bytes → List Nat
  | a :: b :: rest => (a.toNat * 256 + b.toNat) :: words16 rest
  | [a] => [a.toNat * 256]
  | [] => []

/-- Addition in ones' complement: the carry is added again. -/
def onesAdd (a b : Nat) : Nat := if a + b < 65536 then a + b else a + b - 65536 + 1

/-- The ones' complement sum of the words. -/
def onesSum (bs : Bytes) : Nat := (words16 bs).foldl onesAdd 0

/-- How a receiver checks a checksum: the sum of all words, the checksum among them, is all ones. -/
def ChecksumOk (bs : Bytes) : Prop := onesSum bs = 0xffff

instance (bs : Bytes) : Decidable (ChecksumOk bs) := inferInstanceAs (Decidable (_ = _))

/-- The pseudo header of a TCP segment (RFC 793, 3.1). -/
def pseudo (src dst : Ip4) (protocol : UInt8) (segment : Bytes) : Bytes :=
  [src.a, src.b, src.c, src.d, dst.a, dst.b, dst.c, dst.d, 0, protocol,
    UInt8.ofNat (segment.length / 256), UInt8.ofNat (segment.length % 256)]

/-! ## Packets with fields that fit into the header -/

/-- The value is not the number of a named operation. -/
def ArpOpOk : ArpOp → Prop
  | .unknown op => op ≠ 1 ∧ op ≠ 2
  | _ => True

/-- The addresses have the announced lengths. -/
structure ArpOk (p : Arp) : Prop where
  op : ArpOpOk p.oper
  sha : p.sha.length = p.hlen.toNat
  spa : p.spa.length = p.plen.toNat
  tha : p.tha.length = p.hlen.toNat
  tpa : p.tpa.length = p.plen.toNat

/-- The value is not the number of a named type. -/
def IcmpOk (p : Icmp) : Prop :=
  match p.type with
  | .unknown t => t ≠ 8 ∧ t ≠ 0
  | _ => True

structure TcpOk (p : Tcp) : Prop where
  flags : p.flags.toNat < 512
  options : p.options.length ≤ 10

/-- The body is of the kind the header announces. -/
def BodyOk : Proto → IpBody → Prop
  | .icmp, .icmp p => IcmpOk p
  | .tcp, .tcp p => TcpOk p
  | .udp, .raw _ => True
  | .unknown c, .raw _ => c ≠ 1 ∧ c ≠ 6 ∧ c ≠ 17
  | _, _ => False

/-- The number of bytes of a body. -/
def bodySize : IpBody → Nat
  | .icmp p => 8 + p.body.length
  | .tcp p => 20 + 4 * p.options.length + p.data.length
  | .raw bs => bs.length

/-- The total length of an IPv4 packet. -/
def totalLength (p : Ip) : Nat := 20 + 4 * p.header.options.length + bodySize p.body

structure IpOk (p : Ip) : Prop where
  version : p.header.version.toNat < 16
  dscp : p.header.dscp.toNat < 64
  ecn : p.header.ecn.toNat < 4
  flags : p.header.flags.toNat < 8
  foffset : p.header.foffset.toNat < 8192
  options : p.header.options.length ≤ 10
  body : BodyOk p.header.protocol p.body
  length : totalLength p < 65536

/-- The body is of the kind the header announces. -/
def FrameOk (f : Frame) : Prop :=
  match f.body with
  | .arp p => f.header.etype = 0x0806 ∧ ArpOk p
  | .ip p => f.header.etype = 0x0800 ∧ IpOk p
  | .raw _ => f.header.etype ≠ 0x0806 ∧ f.header.etype ≠ 0x0800

/-! ## What the receiver makes of a packet -/

/-- The body with the bytes that follow the packet in the frame and without the urgent pointer. -/
def bodyReceived (pad : Bytes) : IpBody → IpBody
  | .icmp p => .icmp { p with body := p.body ++ pad }
  | .tcp p => .tcp { p with uptr := 0, data := p.data ++ pad }
  | .raw bs => .raw (bs ++ pad)

/-- The packet with the length of the header filled in. -/
def ipReceived (pad : Bytes) (p : Ip) : Ip :=
  ⟨{ p.header with length := totalLength p }, bodyReceived pad p.body⟩

/-- The frame that is received if `pad` follows it. -/
def received (pad : Bytes) (f : Frame) : Frame :=
  ⟨f.header, match f.body with
    | .arp p => .arp p
    | .ip p => .ip (ipReceived pad p)
    | .raw bs => .raw (bs ++ pad)⟩

/-! ## Layouts -/

/-- A MAC address as a number. -/
def macNat (m : MacAddr) : Nat := natBE [m.b0, m.b1, m.b2, m.b3, m.b4, m.b5]

/-- An IPv4 address as a number. -/
def ipNat (x : Ip4) : Nat := natBE [x.a, x.b, x.c, x.d]

/-- The numbers of the ARP operations (RFC 826). -/
def arpOpNumber : ArpOp → Nat
  | .request => 1
  | .reply => 2
  | .unknown op => op.toNat

/-- The numbers of the protocols (RFC 790). -/
def protocolNumber : Proto → Nat
  | .icmp => 1
  | .tcp => 6
  | .udp => 17
  | .unknown c => c.toNat

/-- The numbers of the ICMP messages (RFC 792). -/
def icmpTypeNumber : IcmpType → Nat
  | .echo => 8
  | .echoReply => 0
  | .unknown t => t.toNat

/-- The bytes of option words. -/
def optionBytes (ws : List Word) : Bytes := (ws.map (fun x => [x.b0, x.b1, x.b2, x.b3])).flatten

structure EtherLayout (h : EtherHeader) (payload bs : Bytes) : Prop where
  dst : field bs 0 6 = macNat h.dst
  src : field bs 6 6 = macNat h.src
  type : field bs 12 2 = h.etype.toNat
  payload : bs.drop 14 = payload

structure ArpLayout (p : Arp) (bs : Bytes) : Prop where
  htype : field bs 0 2 = p.htype.toNat
  ptype : field bs 2 2 = p.ptype.toNat
  hlen : field bs 4 1 = p.hlen.toNat
  plen : field bs 5 1 = p.plen.toNat
  oper : field bs 6 2 = arpOpNumber p.oper
  sha : slice bs 8 p.hlen.toNat = p.sha
  spa : slice bs (8 + p.hlen.toNat) p.plen.toNat = p.spa
  tha : slice bs (8 + p.hlen.toNat + p.plen.toNat) p.hlen.toNat = p.tha
  tpa : slice bs (8 + 2 * p.hlen.toNat + p.plen.toNat) p.plen.toNat = p.tpa
  length : bs.length = 8 + 2 * p.hlen.toNat + 2 * p.plen.toNat

structure IpLayout (p : Ip) (payload bs : Bytes) : Prop where
  version : field bs 0 1 / 16 = p.header.version.toNat
  headerLength : field bs 0 1 % 16 = 5 + p.header.options.length
  dscp : field bs 1 1 / 4 = p.header.dscp.toNat
  ecn : field bs 1 1 % 4 = p.header.ecn.toNat
  length : field bs 2 2 = bs.length
  ident : field bs 4 2 = p.header.ident.toNat
  flags : field bs 6 2 / 8192 = p.header.flags.toNat
  foffset : field bs 6 2 % 8192 = p.header.foffset.toNat
  ttl : field bs 8 1 = p.header.ttl.toNat
  protocol : field bs 9 1 = protocolNumber p.header.protocol
  src : field bs 12 4 = ipNat p.header.src
  dst : field bs 16 4 = ipNat p.header.dst
  options : slice bs 20 (4 * p.header.options.length) = optionBytes p.header.options
  payload : bs.drop (20 + 4 * p.header.options.length) = payload

structure IcmpLayout (p : Icmp) (bs : Bytes) : Prop where
  type : field bs 0 1 = icmpTypeNumber p.type
  code : field bs 1 1 = p.code.toNat
  rest : field bs 4 4 = p.rest.toNat
  body : bs.drop 8 = p.body

structure TcpLayout (p : Tcp) (bs : Bytes) : Prop where
  sport : field bs 0 2 = p.sport.toNat
  dport : field bs 2 2 = p.dport.toNat
  seq : field bs 4 4 = p.seq.toNat
  ack : field bs 8 4 = p.ack.toNat
  dataOffset : field bs 12 2 / 4096 = 5 + p.options.length
  flags : field bs 12 2 % 4096 = p.flags.toNat
  window : field bs 14 2 = p.wsize.toNat
  options : slice bs 20 (4 * p.options.length) = optionBytes p.options
  data : bs.drop (20 + 4 * p.options.length) = p.data

/-! ## Received frames -/

/-- The Ethernet type. -/
def etherType (f : Bytes) : Nat := field f 12 2

/-- The header length of an IPv4 packet in a frame, in bytes. -/
def ipHeaderSize (f : Bytes) : Nat := field f 14 1 % 16 * 4

/-- The protocol of an IPv4 packet in a frame. -/
def ipProtocol (f : Bytes) : Nat := field f 23 1

/-- Where the payload of the IPv4 packet starts in the frame. -/
def ipPayload (f : Bytes) : Nat := 14 + ipHeaderSize f

/-- The header length of a TCP segment in a frame, in bytes. -/
def tcpHeaderSize (f : Bytes) : Nat := field f (ipPayload f + 12) 1 / 16 * 4

/-- A complete Ethernet header and a type. -/
def HasType (f : Bytes) (t : Nat) : Prop := 14 ≤ f.length ∧ etherType f = t

/-- An IPv4 packet with a complete header and a header length of at least 20 bytes. -/
def GoodIp (f : Bytes) : Prop :=
  HasType f 0x0800 ∧ 34 ≤ f.length ∧ 20 ≤ ipHeaderSize f ∧ ipPayload f ≤ f.length

/-- A header length below the minimum. -/
def BadIpHeaderLength (f : Bytes) : Prop := HasType f 0x0800 ∧ 34 ≤ f.length ∧ ipHeaderSize f < 20

/-- A data offset below the minimum. -/
def BadTcpDataOffset (f : Bytes) : Prop :=
  GoodIp f ∧ ipProtocol f = 6 ∧ ipPayload f + 20 ≤ f.length ∧ tcpHeaderSize f < 20

/-- The frame ends too early. -/
inductive Truncated (f : Bytes) : Prop
  | ethernet (h : f.length < 14)
  | arpHeader (ht : HasType f 0x0806) (h : f.length < 22)
  | arpAddresses (ht : HasType f 0x0806) (h : f.length < 22 + 2 * field f 18 1 + 2 * field f 19 1)
  | ipHeader (ht : HasType f 0x0800) (h : f.length < 34)
  | ipOptions (ht : HasType f 0x0800) (hs : 20 ≤ ipHeaderSize f) (h : f.length < ipPayload f)
  | icmp (hg : GoodIp f) (hp : ipProtocol f = 1) (h : f.length < ipPayload f + 8)
  | tcp (hg : GoodIp f) (hp : ipProtocol f = 6) (h : f.length < ipPayload f + 20)
  | tcpOptions (hg : GoodIp f) (hp : ipProtocol f = 6) (hs : 20 ≤ tcpHeaderSize f)
      (h : f.length < ipPayload f + tcpHeaderSize f)

end Verif.Spec.Raw
