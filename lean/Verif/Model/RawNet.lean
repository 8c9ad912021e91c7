import Verif.Model.Service
import Verif.Model.Wire
/-!
# Model of the raw packets

Source: /repo/src/net/raw/utils.rs, ether/mod.rs, ether/packet.rs, arp.rs, ip.rs, icmp.rs, tcp.rs (the packets; the
scanners are in `Model/RawScan`), /repo/src/net/utils.rs and `vec_from_raw_parts_unaligned` of /repo/src/utils/mod.rs.

A `#[repr(packed)]` structure is the concatenation of its fields; reading one from a pointer is reading its fields
at their offsets. Serialization goes to a `Vec<u8>` and cannot fail. `w` is the width of `usize` in bits. The release
profile has no overflow checks, so arithmetic wraps. Error messages are left out.
-/
namespace Verif.Raw

open Wire (Res)

/-! ## Addresses -/

/-- `Ipv4Addr::octets` (the standard library; used in ip.rs and arp.rs) -/
def octets (x : Ip4) : Bytes := [x.a, x.b, x.c, x.d]

/-- `Ipv4AddrEx::as_u32` (src/net/utils.rs:51-53). -/
def asU32 (x : Ip4) : UInt32 := rd32 x.a x.b x.c x.d

/-- `Ipv4Addr::from(u32)` -/
def ofU32 (v : UInt32) : Ip4 :=
  ⟨UInt8.ofNat (v.toNat / 16777216), UInt8.ofNat (v.toNat / 65536 % 256), UInt8.ofNat (v.toNat / 256 % 256),
    UInt8.ofNat (v.toNat % 256)⟩

/-- `Ipv4AddrEx::from_slice` (src/net/utils.rs:41-49): `assert_eq!(bytes.len(), 4)`. -/
def ip4FromSlice (bs : Bytes) : Option Ip4 :=
  match bs with
  | [a, b, c, d] => some (ofU32 (rd32 a b c d))
  | _ => none

/-- `MacAddr::from_slice` (ether/mod.rs:77-80): `assert_eq!(bytes.len(), 6)`. -/
def macFromSlice (bs : Bytes) : Option MacAddr :=
  match bs with
  | [a, b, c, d, e, f] => some ⟨a, b, c, d, e, f⟩
  | _ => none

/-! ## Checksum -/

/-- The sum of `sum_raw_be` (utils.rs:52-71), continued from `sum`: pairs of bytes as big endian numbers, then the last
byte of an odd number of bytes as the high byte. -/
def sumFrom (sum : UInt32) : Bytes → UInt32
  | a :: b :: rest => sumFrom (sum + (rd16 a b).toUInt32) rest
  | [a] => sum + (a.toUInt32 <<< 8)
  | [] => sum

/-- `sum_raw_be` (utils.rs:52-71), `sum_type` (36-40) and `sum_slice` (44-48). -/
def sumBe (bs : Bytes) : UInt32 := sumFrom 0 bs

/-- The loop of `sum_to_checksum` (utils.rs:73-83), at most `n` rounds. Three are always enough (`foldLoop_small`). -/
def foldLoop : Nat → UInt32 → UInt32
  | 0, c => c
  | n + 1, c =>
    if c &&& 0xffff0000 ≠ 0 then
      let hw := c >>> 16
      let lw := c &&& 0xffff
      foldLoop n (lw + hw)
    else c

/-- `sum_to_checksum` (utils.rs:74-83). -/
def checksumOf (sum : UInt32) : UInt16 := (~~~ (foldLoop 3 sum)).toUInt16

/-! ## Reading -/

/-- A `u8` field at an offset of a packed structure (`#[repr(packed)]` structures, read in arp.rs, ip.rs, icmp.rs and tcp.rs). -/
def at8 (bs : Bytes) (i : Nat) : UInt8 := bs.getD i 0

/-- A big endian `u16` field at an offset of a packed structure (as `at8`). -/
def at16 (bs : Bytes) (i : Nat) : UInt16 := rd16 (at8 bs i) (at8 bs (i + 1))

/-- A big endian `u32` field at an offset of a packed structure (as `at8`). -/
def at32 (bs : Bytes) (i : Nat) : UInt32 := rd32 (at8 bs i) (at8 bs (i + 1)) (at8 bs (i + 2)) (at8 bs (i + 3))

/-- A MAC address at an offset of a packed structure (ether/packet.rs and arp.rs). -/
def atMac (bs : Bytes) (i : Nat) : MacAddr :=
  ⟨at8 bs i, at8 bs (i + 1), at8 bs (i + 2), at8 bs (i + 3), at8 bs (i + 4), at8 bs (i + 5)⟩

/-- `Ipv4Addr::from_slice` of four bytes at an offset of a packed structure (src/net/utils.rs: `Ipv4AddrEx::from_slice`). -/
def atIp (bs : Bytes) (i : Nat) : Ip4 := ofU32 (at32 bs i)

/-- A `u32` in memory: an option word is kept in the byte order of the machine, so it is its four bytes (src/utils/mod.rs: `vec_from_raw_parts_unaligned`; ip.rs and tcp.rs: `options`). -/
structure Word where
  b0 : UInt8
  b1 : UInt8
  b2 : UInt8
  b3 : UInt8
deriving DecidableEq, Repr

/-- `slice_as_bytes` of option words (src/utils/mod.rs:88-92). -/
def wordBytes (ws : List Word) : Bytes := ws.flatMap (fun x => [x.b0, x.b1, x.b2, x.b3])

/-- The loop of `vec_from_raw_parts_unaligned` (src/utils/mod.rs:112-114) over the bytes at the pointer. -/
def readWords : Nat → Bytes → List Word
  | 0, _ => []
  | n + 1, bs => ⟨at8 bs 0, at8 bs 1, at8 bs 2, at8 bs 3⟩ :: readWords n (bs.drop 4)

/-- `vec_from_raw_parts_unaligned::<u32>` (src/utils/mod.rs:109-117): `Vec::with_capacity` panics if the capacity in
bytes exceeds `isize::MAX`. -/
def vecWords (w : Nat) (bs : Bytes) (len : Nat) : Res (List Word) :=
  if 2 ^ (w - 1) ≤ len * 4 then .panic else .ok (readWords len bs)

/-! ## ARP -/

/-- `enum ArpOperation` (arp.rs:46-50). -/
inductive ArpOp where
  | request
  | reply
  | unknown (op : UInt16)
deriving DecidableEq, Repr

/-- `ArpOperation::code` (arp.rs:54-60). -/
def ArpOp.code : ArpOp → UInt16
  | .request => 1
  | .reply => 2
  | .unknown op => op

/-- `ArpOperation::from` (arp.rs:64-70). -/
def ArpOp.ofCode (v : UInt16) : ArpOp :=
  if v = 1 then .request else if v = 2 then .reply else .unknown v

/-- `struct ArpPacket` (arp.rs:31-41). -/
structure Arp where
  htype : UInt16
  ptype : UInt16
  hlen : UInt8
  plen : UInt8
  oper : ArpOp
  sha : Bytes
  spa : Bytes
  tha : Bytes
  tpa : Bytes
deriving DecidableEq, Repr

/-- `ArpPacket::ipv4_over_ethernet` (arp.rs:78-96). -/
def Arp.ipv4 (oper : ArpOp) (sha : MacAddr) (spa : Ip4) (tha : MacAddr) (tpa : Ip4) : Arp :=
  ⟨0x0001, 0x0800, 6, 4, oper, sha.octets, octets spa, tha.octets, octets tpa⟩

/-- `ArpPacket::parse` (arp.rs:98-145); the offsets do not overflow. -/
def Arp.parse (data : Bytes) : Res Arp :=
  if data.length < 8 then .err
  else
    let hlen := (at8 data 4).toNat
    let plen := (at8 data 5).toNat
    if data.length < 8 + hlen * 2 + plen * 2 then .err
    else
      let o1 := 8
      let o2 := o1 + hlen
      let o3 := o2 + plen
      let o4 := o3 + hlen
      .ok ⟨at16 data 0, at16 data 2, at8 data 4, at8 data 5, ArpOp.ofCode (at16 data 6),
        (data.drop o1).take hlen, (data.drop o2).take plen, (data.drop o3).take hlen, (data.drop o4).take plen⟩

/-- `impl Serialize for ArpPacket` and `RawArpPacketHeader` (arp.rs:148-188). -/
def Arp.bytes (p : Arp) : Bytes :=
  be16 p.htype ++ be16 p.ptype ++ [p.hlen] ++ [p.plen] ++ be16 p.oper.code ++ p.sha ++ p.spa ++ p.tha ++ p.tpa

/-! ## The IPv4 header -/

/-- `enum Ipv4PacketType` (ip.rs:188-193). -/
inductive Proto where
  | icmp
  | tcp
  | udp
  | unknown (code : UInt8)
deriving DecidableEq, Repr

/-- `Ipv4PacketType::code` (ip.rs:197-204), with the constants of ip.rs:33-35. -/
def Proto.code : Proto → UInt8
  | .icmp => 0x01
  | .tcp => 0x06
  | .udp => 0x11
  | .unknown c => c

/-- `Ipv4PacketType::from` (ip.rs:208-216). -/
def Proto.ofCode (c : UInt8) : Proto :=
  if c = 0x01 then .icmp else if c = 0x06 then .tcp else if c = 0x11 then .udp else .unknown c

/-- `struct Ipv4PacketHeader` (ip.rs:40-53). -/
structure IpHeader where
  version : UInt8
  dscp : UInt8
  ecn : UInt8
  ident : UInt16
  flags : UInt8
  foffset : UInt16
  ttl : UInt8
  protocol : Proto
  src : Ip4
  dst : Ip4
  options : List Word
  length : Nat
deriving DecidableEq, Repr

/-- `Ipv4PacketHeader::new` (ip.rs:57-77). -/
def IpHeader.new (src dst : Ip4) (protocol : Proto) (ttl : UInt8) : IpHeader :=
  ⟨4, 0, 0, 0, 0, 0, ttl, protocol, src, dst, [], 0⟩

/-- The fields of `RawIpv4PacketHeader` in memory (ip.rs:143-154, 163-174). -/
def ipRaw (ip : IpHeader) (dlen : Nat) (checksum : UInt16) : Bytes :=
  let length := 20 + ip.options.length * 4 + dlen
  let ihl : UInt8 := 5 + UInt8.ofNat ip.options.length
  let flagsFoffset : UInt16 := (ip.flags.toUInt16 <<< 13) ||| (ip.foffset &&& 0x1fff)
  [(ip.version <<< 4) ||| (ihl &&& 0x0f)] ++ [(ip.dscp <<< 2) ||| (ip.ecn &&& 0x03)] ++
    be16 (UInt16.ofNat length) ++ be16 ip.ident ++ be16 flagsFoffset ++ [ip.ttl] ++ [ip.protocol.code] ++
    be16 checksum ++ octets ip.src ++ octets ip.dst

/-- The checksum computed by `RawIpv4PacketHeader::new` (ip.rs:176-179). -/
def ipChecksum (ip : IpHeader) (dlen : Nat) : UInt16 :=
  checksumOf (sumBe (ipRaw ip dlen 0) + sumBe (wordBytes ip.options))

/-- `Ipv4PacketHeader::serialize` and `RawIpv4PacketHeader::new` (ip.rs:80-87, 158-182). -/
def IpHeader.bytes (ip : IpHeader) (dlen : Nat) : Bytes :=
  ipRaw ip dlen (ipChecksum ip dlen) ++ wordBytes ip.options

/-- `Ipv4PacketHeader::parse` (ip.rs:90-137). -/
def IpHeader.parse (w : Nat) (data : Bytes) : Res IpHeader :=
  if data.length < 20 then .err
  else
    let flagsFoffset := at16 data 6
    let ihl := at8 data 0 &&& 0x0f
    let optionsLen := (2 ^ w + ihl.toNat - 5) % 2 ^ w
    if data.length < (20 + optionsLen * 4) % 2 ^ w then .err
    else
      match vecWords w (data.drop 20) optionsLen with
      | .ok options =>
        .ok ⟨at8 data 0 >>> 4, at8 data 1 >>> 2, at8 data 1 &&& 0x03, at16 data 4, (flagsFoffset >>> 13).toUInt8,
          flagsFoffset &&& 0x1fff, at8 data 8, Proto.ofCode (at8 data 9), atIp data 12, atIp data 16, options,
          (at16 data 2).toNat⟩
      | .err => .err
      | .panic => .panic

/-! ## ICMP -/

/-- `enum IcmpPacketType` (icmp.rs:33-37). -/
inductive IcmpType where
  | echo
  | echoReply
  | unknown (t : UInt8)
deriving DecidableEq, Repr

/-- `IcmpPacketType::code` (icmp.rs:41-47), with the constants of icmp.rs:28-29. -/
def IcmpType.code : IcmpType → UInt8
  | .echo => 0x08
  | .echoReply => 0x00
  | .unknown t => t

/-- `IcmpPacketType::from` (icmp.rs:51-57). -/
def IcmpType.ofCode (c : UInt8) : IcmpType :=
  if c = 0x08 then .echo else if c = 0x00 then .echoReply else .unknown c

/-- `struct IcmpPacket` (icmp.rs:61-66). -/
structure Icmp where
  type : IcmpType
  code : UInt8
  rest : UInt32
  body : Bytes
deriving DecidableEq, Repr

/-- `IcmpPacket::echo_request` (icmp.rs:70-80). -/
def Icmp.echoRequest (id seq : UInt16) (payload : Bytes) : Icmp :=
  ⟨.echo, 0, (id.toUInt32 <<< 16) ||| seq.toUInt32, payload⟩

/-- `IcmpPacket::parse` (icmp.rs:88-112). -/
def Icmp.parse (data : Bytes) : Res Icmp :=
  if data.length < 8 then .err
  else .ok ⟨IcmpType.ofCode (at8 data 0), at8 data 1, at32 data 4, data.drop 8⟩

/-- `IcmpPacket::checksum` (icmp.rs:127-140). -/
def Icmp.checksum (p : Icmp) : UInt16 :=
  checksumOf ((((p.type.code.toUInt16 <<< 8) ||| p.code.toUInt16).toUInt32 + (p.rest >>> 16) + (p.rest &&& 0xff)) +
    sumBe p.body)

/-- `Ipv4PacketBody::serialize` for ICMP (icmp.rs:115-124, 144-153). -/
def Icmp.bytes (p : Icmp) : Bytes :=
  [p.type.code] ++ [p.code] ++ be16 p.checksum ++ be32 p.rest ++ p.body

/-- `IcmpEchoPacket::identifier` (icmp.rs:184-186). -/
def Icmp.identifier (p : Icmp) : UInt16 := (p.rest >>> 16).toUInt16

/-- `IcmpEchoPacket::seq_number` (icmp.rs:188-190). -/
def Icmp.seqNumber (p : Icmp) : UInt16 := (p.rest &&& 0xff).toUInt16

/-! ## TCP -/

/-- `struct TcpPacket` (tcp.rs:39-49). -/
structure Tcp where
  sport : UInt16
  dport : UInt16
  seq : UInt32
  ack : UInt32
  flags : UInt16
  wsize : UInt16
  uptr : UInt16
  options : List Word
  data : Bytes
deriving DecidableEq, Repr

/-- `TcpPacket::new` (tcp.rs:53-67). -/
def Tcp.new (sport dport flags : UInt16) (data : Bytes) : Tcp :=
  ⟨sport, dport, 0, 0, flags, 8192, 0, [], data⟩

/-- `TcpPacket::parse` (tcp.rs:70-118). -/
def Tcp.parse (w : Nat) (data : Bytes) : Res Tcp :=
  if data.length < 20 then .err
  else
    let doffsetFlags := at16 data 12
    let doffset := doffsetFlags >>> 12
    let optionsLen := (2 ^ w + doffset.toNat - 5) % 2 ^ w
    let offset2 := (20 + optionsLen * 4) % 2 ^ w
    if offset2 > data.length then .err
    else
      match vecWords w (data.drop 20) optionsLen with
      | .ok options =>
        .ok ⟨at16 data 0, at16 data 2, at32 data 4, at32 data 8, doffsetFlags &&& 0x01ff, at16 data 14, at16 data 18,
          options, data.drop offset2⟩
      | .err => .err
      | .panic => .panic

/-- `PseudoIpv4PacketHeader` in memory (tcp.rs:187-207). -/
def pseudoHeader (iph : IpHeader) (tcpLen : UInt16) : Bytes :=
  octets iph.src ++ octets iph.dst ++ [0] ++ [iph.protocol.code] ++ be16 tcpLen

/-- `doffset` of `RawTcpPacketHeader::new` (tcp.rs:157). -/
def Tcp.doffset (p : Tcp) : UInt16 := 5 + UInt16.ofNat p.options.length

/-- The fields of `RawTcpPacketHeader` in memory (tcp.rs:141-151, 158-169). The urgent pointer is always 0. -/
def tcpRaw (p : Tcp) (checksum : UInt16) : Bytes :=
  be16 p.sport ++ be16 p.dport ++ be32 p.seq ++ be32 p.ack ++
    be16 ((p.doffset <<< 12) ||| (p.flags &&& 0x01ff)) ++ be16 p.wsize ++ be16 checksum ++ be16 0

/-- The checksum computed by `RawTcpPacketHeader::new` (tcp.rs:154-181). -/
def tcpChecksum (iph : IpHeader) (p : Tcp) : UInt16 :=
  let tcpLen : UInt16 := (p.doffset <<< 2) + UInt16.ofNat p.data.length
  checksumOf (sumBe (pseudoHeader iph tcpLen) + sumBe (tcpRaw p 0) + sumBe (wordBytes p.options) + sumBe p.data)

/-- `Ipv4PacketBody::serialize` for TCP (tcp.rs:122-130). -/
def Tcp.bytes (iph : IpHeader) (p : Tcp) : Bytes :=
  tcpRaw p (tcpChecksum iph p) ++ wordBytes p.options ++ p.data

/-! ## IPv4 packets -/

/-- The implementations of `Ipv4PacketBody` (ip.rs, icmp.rs, tcp.rs). -/
inductive IpBody where
  | icmp (p : Icmp)
  | tcp (p : Tcp)
  | raw (bs : Bytes)
deriving DecidableEq, Repr

/-- `Ipv4PacketBody::len` (ip.rs:232-234, icmp.rs:155-159, tcp.rs:132-137). -/
def IpBody.len : IpBody → Nat
  | .icmp p => 8 + p.body.length
  | .tcp p => 20 + 4 * p.options.length + p.data.length
  | .raw bs => bs.length

/-- `Ipv4PacketBody::serialize` (ip.rs:228-230, icmp.rs:144-153, tcp.rs:122-130). -/
def IpBody.bytes (iph : IpHeader) : IpBody → Bytes
  | .icmp p => p.bytes
  | .tcp p => p.bytes iph
  | .raw bs => bs

/-- `struct Ipv4Packet` (ip.rs:238-241). -/
structure Ip where
  header : IpHeader
  body : IpBody
deriving DecidableEq, Repr

/-- `Ipv4Packet::icmp` (ip.rs:256-261). -/
def Ip.icmp (src dst : Ip4) (ttl : UInt8) (p : Icmp) : Ip := ⟨IpHeader.new src dst .icmp ttl, .icmp p⟩

/-- `Ipv4Packet::tcp` (ip.rs:264-269). -/
def Ip.tcp (src dst : Ip4) (ttl : UInt8) (p : Tcp) : Ip := ⟨IpHeader.new src dst .tcp ttl, .tcp p⟩

/-- `impl Serialize for Ipv4Packet` (ip.rs:311-318). -/
def Ip.bytes (p : Ip) : Bytes := p.header.bytes p.body.len ++ p.body.bytes p.header

/-- The body of a received packet by its protocol (ip.rs:286-290). -/
def parseIpBody (w : Nat) (header : IpHeader) (payload : Bytes) : Res Ip :=
  match header.protocol with
  | .icmp =>
    match Icmp.parse payload with
    | .ok p => .ok ⟨header, .icmp p⟩
    | .err => .err
    | .panic => .panic
  | .tcp =>
    match Tcp.parse w payload with
    | .ok p => .ok ⟨header, .tcp p⟩
    | .err => .err
    | .panic => .panic
  | _ => .ok ⟨header, .raw payload⟩

/-- `Ipv4Packet::parse` (ip.rs:272-295); the slice starts within the data as the header was complete. The total length
field is not used. -/
def Ip.parse (w : Nat) (data : Bytes) : Res Ip :=
  if data.length < 20 then .err
  else
    match IpHeader.parse w data with
    | .ok header =>
      let offset := 20 + header.options.length * 4
      parseIpBody w header (data.drop offset)
    | .err => .err
    | .panic => .panic

/-! ## Ethernet frames -/

/-- `enum EtherPacketType` (ether/packet.rs:127-131). -/
inductive EtherType where
  | arp
  | ipv4
  | unknown (t : UInt16)
deriving DecidableEq, Repr

/-- `EtherPacketType::code` (ether/packet.rs:137-144), with the constants of lines 60-61. -/
def EtherType.code : EtherType → UInt16
  | .arp => 0x0806
  | .ipv4 => 0x0800
  | .unknown t => t

/-- `EtherPacketType::from` (ether/packet.rs:148-155). -/
def EtherType.ofCode (c : UInt16) : EtherType :=
  if c = 0x0806 then .arp else if c = 0x0800 then .ipv4 else .unknown c

/-- `struct EtherPacketHeader` (ether/packet.rs:65-69). -/
structure EtherHeader where
  src : MacAddr
  dst : MacAddr
  etype : UInt16
deriving DecidableEq, Repr

/-- `EtherPacketHeader::new` (ether/packet.rs:73-79). -/
def EtherHeader.new (src dst : MacAddr) (t : EtherType) : EtherHeader := ⟨src, dst, t.code⟩

/-- `impl Serialize for EtherPacketHeader`, `raw_header` and `RawEtherPacketHeader` (ether/packet.rs:87-93, 112-124):
the destination comes first. -/
def EtherHeader.bytes (h : EtherHeader) : Bytes := h.dst.octets ++ h.src.octets ++ be16 h.etype

/-- `EtherPacketHeader::parse` (ether/packet.rs:96-109), of 14 bytes. -/
def EtherHeader.parse (data : Bytes) : EtherHeader := ⟨atMac data 6, atMac data 0, at16 data 12⟩

/-- The implementations of `EtherPacketBody` (ether/packet.rs, arp.rs, ip.rs). -/
inductive EtherBody where
  | arp (p : Arp)
  | ip (p : Ip)
  | raw (bs : Bytes)
deriving DecidableEq, Repr

/-- `struct EtherPacket` (ether/packet.rs:161-164). -/
structure Frame where
  header : EtherHeader
  body : EtherBody
deriving DecidableEq, Repr

/-- `EtherPacket::arp` (ether/packet.rs:181-184). -/
def Frame.arp (src dst : MacAddr) (p : Arp) : Frame := ⟨EtherHeader.new src dst .arp, .arp p⟩

/-- `EtherPacket::ipv4` (ether/packet.rs:186-192). -/
def Frame.ipv4 (src dst : MacAddr) (p : Ip) : Frame := ⟨EtherHeader.new src dst .ipv4, .ip p⟩

/-- `serialize` of an Ethernet body (arp.rs:148-161, ip.rs:311-318, utils.rs:29-33). -/
def EtherBody.bytes : EtherBody → Bytes
  | .arp p => p.bytes
  | .ip p => p.bytes
  | .raw bs => bs

/-- `impl Serialize for EtherPacket` (ether/packet.rs:231-238). -/
def Frame.bytes (f : Frame) : Bytes := f.header.bytes ++ f.body.bytes

/-- The body of a received frame by its type (ether/packet.rs:206-210). -/
def parseEtherBody (w : Nat) (header : EtherHeader) (payload : Bytes) : Res Frame :=
  match EtherType.ofCode header.etype with
  | .arp =>
    match Arp.parse payload with
    | .ok p => .ok ⟨header, .arp p⟩
    | .err => .err
    | .panic => .panic
  | .ipv4 =>
    match Ip.parse w payload with
    | .ok p => .ok ⟨header, .ip p⟩
    | .err => .err
    | .panic => .panic
  | .unknown _ => .ok ⟨header, .raw payload⟩

/-- `EtherPacket::parse` (ether/packet.rs:194-215). -/
def Frame.parse (w : Nat) (data : Bytes) : Res Frame :=
  if data.length < 14 then .err
  else parseEtherBody w (EtherHeader.parse (data.take 14)) (data.drop 14)

end Verif.Raw
