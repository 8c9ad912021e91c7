import Verif.Model.RawNet
import Verif.Model.Control
/-!
# Model of the reads through raw pointers

Source: /repo/src/net/raw/ether/packet.rs, arp.rs, ip.rs, icmp.rs, tcp.rs, utils.rs, /repo/src/utils/mod.rs,
/repo/src/net/arrow/proto/msg/mod.rs and msg/control/*.rs.

`Model/RawNet`, `Model/Wire` and `Model/Control` read fields of a byte list. The code reads them through pointers, in
`unsafe` blocks. Here memory is explicit: a read through a pointer names its address and its size, and a read of an
address that does not belong to the data is a `fault` (undefined behaviour in the program). Indexing of a slice is
checked by the program itself and panics.

All the structures read here are `#[repr(packed)]` (alignment 1) or are read with `read_unaligned`, so alignment is not
modelled. Addresses are natural numbers: data of a slice does not wrap around the address space.
-/
namespace Verif.RawRead

open Wire (Res)
open Raw (Word)

/-- Memory the program may read: the byte at each address, none where there is nothing to read. (No code: the address
space of the process.) -/
abbrev Mem := Nat → Option UInt8

/-- A `&[u8]`: a pointer and a length (`as_ptr` and `len` in all the files above). -/
structure Slice where
  mem : Mem
  ptr : Nat
  len : Nat

/-- What a parser does: a value, an error, a panic, or a read of memory it does not have (`Result` of the parsers in the
files above). -/
inductive Out (α : Type) where
  | ok (a : α)
  | err
  | panic
  | fault
deriving DecidableEq, Repr

/-- The `?` operator and sequencing, in all the functions below (e.g. ip.rs:280). -/
def Out.bind {α β : Type} : Out α → (α → Out β) → Out β
  | .ok a, f => f a
  | .err, _ => .err
  | .panic, _ => .panic
  | .fault, _ => .fault

instance : Monad Out where
  pure := Out.ok
  bind := Out.bind

/-- An outcome without memory (`Wire.Res`) as one of this model. (No code.) -/
def Out.of {α : Type} : Res α → Out α
  | .ok a => .ok a
  | .err => .err
  | .panic => .panic

/-- Read `n` bytes at an address: `read_unaligned`, `&*ptr` and `from_raw_parts` (e.g. ip.rs:101, utils.rs:58-59). -/
def peek (m : Mem) : Nat → Nat → Out Bytes
  | _, 0 => .ok []
  | a, n + 1 =>
    match m a with
    | none => .fault
    | some b => do
      let bs ← peek m (a + 1) n
      return b :: bs

/-- `data[i..]` (e.g. ip.rs:283): the check of the standard library panics. -/
def Slice.tail (s : Slice) (i : Nat) : Out Slice :=
  if s.len < i then .panic else .ok ⟨s.mem, s.ptr + i, s.len - i⟩

/-- `data[i..j]` (e.g. arp.rs:123-126): the check of the standard library panics. -/
def Slice.range (s : Slice) (i j : Nat) : Out Slice :=
  if j < i ∨ s.len < j then .panic else .ok ⟨s.mem, s.ptr + i, j - i⟩

/-- `slice.to_vec()` (e.g. arp.rs:134-137). -/
def Slice.toVec (s : Slice) : Out Bytes := peek s.mem s.ptr s.len

/-! ## Option words -/

/-- The loop of `vec_from_raw_parts_unaligned::<u32>` (src/utils/mod.rs:112-114), `idx` rounds done and `n` to go. -/
def wordLoop (m : Mem) (p idx : Nat) : Nat → Out (List Word)
  | 0 => .ok []
  | n + 1 => do
    let x ← peek m (p + idx * 4) 4
    let xs ← wordLoop m p (idx + 1) n
    return ⟨Raw.at8 x 0, Raw.at8 x 1, Raw.at8 x 2, Raw.at8 x 3⟩ :: xs

/-- `vec_from_raw_parts_unaligned::<u32>` (src/utils/mod.rs:109-117): `Vec::with_capacity` panics if the capacity in
bytes exceeds `isize::MAX`. The length is not checked against the data. -/
def vecWords (w : Nat) (m : Mem) (p len : Nat) : Out (List Word) :=
  if 2 ^ (w - 1) ≤ len * 4 then .panic else wordLoop m p 0 len

/-! ## Frames -/

/-- `ArpPacket::parse` (arp.rs:98-145). -/
def arp (s : Slice) : Out Raw.Arp :=
  if s.len < 8 then .err
  else do
    let rh ← peek s.mem s.ptr 8
    let hlen := (Raw.at8 rh 4).toNat
    let plen := (Raw.at8 rh 5).toNat
    let required := 8 + hlen * 2 + plen * 2
    if s.len < required then .err
    else do
      let o1 := 8
      let o2 := o1 + hlen
      let o3 := o2 + plen
      let o4 := o3 + hlen
      let sha ← s.range o1 (o1 + hlen)
      let spa ← s.range o2 (o2 + plen)
      let tha ← s.range o3 (o3 + hlen)
      let tpa ← s.range o4 (o4 + plen)
      let sha ← sha.toVec
      let spa ← spa.toVec
      let tha ← tha.toVec
      let tpa ← tpa.toVec
      return ⟨Raw.at16 rh 0, Raw.at16 rh 2, Raw.at8 rh 4, Raw.at8 rh 5, Raw.ArpOp.ofCode (Raw.at16 rh 6), sha, spa, tha,
        tpa⟩

/-- `Ipv4PacketHeader::parse` (ip.rs:90-137). -/
def ipHeader (w : Nat) (s : Slice) : Out Raw.IpHeader :=
  if s.len < 20 then .err
  else do
    let rh ← peek s.mem s.ptr 20
    let flagsFoffset := Raw.at16 rh 6
    let ihl := Raw.at8 rh 0 &&& 0x0f
    let optionsLen := (2 ^ w + ihl.toNat - 5) % 2 ^ w
    if s.len < (20 + optionsLen * 4) % 2 ^ w then .err
    else do
      let options ← vecWords w s.mem (s.ptr + 20) optionsLen
      return ⟨Raw.at8 rh 0 >>> 4, Raw.at8 rh 1 >>> 2, Raw.at8 rh 1 &&& 0x03, Raw.at16 rh 4,
        (flagsFoffset >>> 13).toUInt8, flagsFoffset &&& 0x1fff, Raw.at8 rh 8, Raw.Proto.ofCode (Raw.at8 rh 9),
        Raw.atIp rh 12, Raw.atIp rh 16, options, (Raw.at16 rh 2).toNat⟩

/-- `IcmpPacket::parse` (icmp.rs:88-112). -/
def icmp (s : Slice) : Out Raw.Icmp :=
  if s.len < 8 then .err
  else do
    let rh ← peek s.mem s.ptr 8
    let body ← s.tail 8
    let body ← body.toVec
    return ⟨Raw.IcmpType.ofCode (Raw.at8 rh 0), Raw.at8 rh 1, Raw.at32 rh 4, body⟩

/-- `TcpPacket::parse` (tcp.rs:70-118). -/
def tcp (w : Nat) (s : Slice) : Out Raw.Tcp :=
  if s.len < 20 then .err
  else do
    let rh ← peek s.mem s.ptr 20
    let doffsetFlags := Raw.at16 rh 12
    let doffset := doffsetFlags >>> 12
    let optionsLen := (2 ^ w + doffset.toNat - 5) % 2 ^ w
    let offset1 := 20
    let offset2 := (offset1 + optionsLen * 4) % 2 ^ w
    if offset2 > s.len then .err
    else do
      let options ← vecWords w s.mem (s.ptr + offset1) optionsLen
      let payload ← s.tail offset2
      let payload ← payload.toVec
      return ⟨Raw.at16 rh 0, Raw.at16 rh 2, Raw.at32 rh 4, Raw.at32 rh 8, doffsetFlags &&& 0x01ff, Raw.at16 rh 14,
        Raw.at16 rh 18, options, payload⟩

/-- `Ipv4Packet::parse` (ip.rs:272-295). -/
def ip (w : Nat) (s : Slice) : Out Raw.Ip :=
  if s.len < 20 then .err
  else do
    let header ← ipHeader w s
    let payload ← s.tail (20 + header.options.length * 4)
    match header.protocol with
    | .icmp => do
      let p ← icmp payload
      return ⟨header, .icmp p⟩
    | .tcp => do
      let p ← tcp w payload
      return ⟨header, .tcp p⟩
    | _ => do
      let p ← payload.toVec
      return ⟨header, .raw p⟩

/-- `EtherPacketHeader::parse` (ether/packet.rs:96-109). -/
def etherHeader (s : Slice) : Out Raw.EtherHeader :=
  if s.len ≠ 14 then .panic
  else do
    let rh ← peek s.mem s.ptr 14
    return ⟨Raw.atMac rh 6, Raw.atMac rh 0, Raw.at16 rh 12⟩

/-- `EtherPacket::parse` (ether/packet.rs:195-215). -/
def frame (w : Nat) (s : Slice) : Out Raw.Frame :=
  if s.len < 14 then .err
  else do
    let h ← s.range 0 14
    let header ← etherHeader h
    let payload ← s.tail 14
    match Raw.EtherType.ofCode header.etype with
    | .arp => do
      let p ← arp payload
      return ⟨header, .arp p⟩
    | .ipv4 => do
      let p ← ip w payload
      return ⟨header, .ip p⟩
    | .unknown _ => do
      let p ← payload.toVec
      return ⟨header, .raw p⟩

/-! ## Checksums -/

/-- The loop of `sum_raw_be` (net/raw/utils.rs:57-62), `idx` rounds done and `n` to go. -/
def sumLoop (m : Mem) (p idx : Nat) (sum : UInt32) : Nat → Out UInt32
  | 0 => .ok sum
  | n + 1 => do
    let x ← peek m (p + idx * 2) 2
    sumLoop m p (idx + 1) (sum + (Raw.at16 x 0).toUInt32) n

/-- `sum_raw_be` (net/raw/utils.rs:52-71); `slice[size - 1]` is a checked index of a slice of `size` bytes. -/
def sumRaw (m : Mem) (p size : Nat) : Out UInt32 := do
  let count := size / 2
  let sum ← sumLoop m p 0 0 count
  if size % 2 ≠ 0 then do
    let last ← peek m (p + (size - 1)) 1
    return sum + ((Raw.at8 last 0).toUInt32 <<< 8)
  else return sum

/-! ## Arrow messages -/

/-- `impl FromBytes for ArrowMessageHeader` (msg/mod.rs:81-102). -/
def header (s : Slice) : Out Wire.Header :=
  if s.len ≠ 11 then .panic
  else do
    let x ← peek s.mem s.ptr 11
    let res : Wire.Header :=
      { version := Raw.at8 x 0, service := Raw.at16 x 1, session := mask24 (Raw.at32 x 3), size := Raw.at32 x 7 }
    if res.version = Wire.protocolVersion then return res else .err

/-- `impl FromBytes for ControlMessageHeader` (control/mod.rs:177-192): the id and the type. -/
def controlHeader (s : Slice) : Out (UInt16 × UInt16) :=
  if s.len ≠ 4 then .panic
  else do
    let x ← peek s.mem s.ptr 4
    return (Raw.at16 x 0, Raw.at16 x 2)

/-- `AckMessage::from_bytes` (ack.rs:58-74). -/
def ack (s : Slice) : Out Control.Body :=
  if s.len ≠ 4 then .err
  else do
    let x ← peek s.mem s.ptr 4
    return .ack (Raw.at32 x 0)

/-- `ConnectMessage::from_bytes` (connect.rs:55-72). -/
def connect (s : Slice) : Out Control.Body :=
  if s.len ≠ 6 then .err
  else do
    let x ← peek s.mem s.ptr 6
    return .connect (Raw.at16 x 0) (Raw.at32 x 2)

/-- `DataAckMessage::from_bytes` (data_ack.rs:65-82). -/
def dataAck (s : Slice) : Out Control.Body :=
  if s.len ≠ 8 then .err
  else do
    let x ← peek s.mem s.ptr 8
    return .dataAck (Raw.at32 x 0) (Raw.at32 x 4)

/-- `HupMessage::from_bytes` (hup.rs:65-82). -/
def hup (s : Slice) : Out Control.Body :=
  if s.len ≠ 8 then .err
  else do
    let x ← peek s.mem s.ptr 8
    return .hup (Raw.at32 x 0) (Raw.at32 x 4)

/-- `ControlMessage::decode_body` (control/mod.rs:339-361). `RedirectMessage::from_bytes` (redirect.rs:45-63) and
`decode_empty_message` (408-415) have no raw pointers: they look at the slice. -/
def body (t : Control.MsgType) (s : Slice) : Out Control.Body :=
  match t with
  | .ack => ack s
  | .connect => connect s
  | .dataAck => dataAck s
  | .redirect => do
    let bs ← s.toVec
    Out.of (Control.decodeRedirect bs)
  | .hup => hup s
  | .ping | .resetSvcTable | .scanNetwork | .getStatus | .getScanReport => do
    let bs ← s.toVec
    Out.of (Control.decodeEmpty bs)
  | .unknown => .err
  | .register | .update | .status | .scanReport => .err

/-- `ControlMessage::from_bytes` (control/mod.rs:434-450). -/
def control (s : Slice) : Out Control.ControlMessage :=
  if s.len < 4 then .err
  else do
    let h ← s.range 0 4
    let h ← controlHeader h
    let rest ← s.tail 4
    let b ← body (Control.MsgType.ofCode h.2) rest
    return ⟨h.1, h.2, b⟩

end Verif.RawRead
