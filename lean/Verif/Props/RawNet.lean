import Verif.Lemmas.RawLayout
import Verif.Lemmas.RawPorts
/-!
# Packets of the network scanners (C66, C67, C68)
-/
namespace Verif.Props
open Verif Verif.Raw Verif.Spec Verif.Spec.Raw

/-! ## C66: checksums -/

/-- The checksum of the header of any IPv4 packet with a legal number of options is valid. -/
theorem C66_ip (p : Ip) (h : p.header.options.length ≤ 10) :
    ChecksumOk (slice p.bytes 0 (20 + 4 * p.header.options.length)) := by
  rw [Ip.bytes, ← ip_header_length p.header p.body.len, slice_all]
  exact ip_checksum p.header p.body.len h

/-- The checksum of any TCP segment with a legal number of options is valid, with the pseudo header. -/
theorem C66_tcp (src dst : Ip4) (ttl : UInt8) (t : Tcp) (h : t.options.length ≤ 10)
    (hl : 20 + 4 * t.options.length + t.data.length < 65536) :
    ChecksumOk (pseudo src dst 6 ((Ip.tcp src dst ttl t).bytes.drop 20) ++ (Ip.tcp src dst ttl t).bytes.drop 20) := by
  have e : (Ip.tcp src dst ttl t).bytes.drop 20 = t.bytes (IpHeader.new src dst .tcp ttl) := by
    rw [Ip.bytes, List.drop_left' (by rw [ip_header_length]; rfl)]
    rfl
  rw [e]
  exact tcp_checksum (IpHeader.new src dst .tcp ttl) t h (by rw [tcp_bytes_length]; exact hl)

/-- The checksum of an echo request is valid exactly if the sequence number fits in a byte. -/
theorem C66_icmp (src dst : Ip4) (ttl : UInt8) (id seq : UInt16) (payload : Bytes) (h : payload.length < 65536) :
    ChecksumOk ((Ip.icmp src dst ttl (Icmp.echoRequest id seq payload)).bytes.drop 20) ↔ seq.toNat < 256 := by
  have e : (Ip.icmp src dst ttl (Icmp.echoRequest id seq payload)).bytes.drop 20 = (Icmp.echoRequest id seq payload).bytes := by
    rw [Ip.bytes, List.drop_left' (by rw [ip_header_length]; rfl)]
    rfl
  have := seq.toNat_lt
  have := id.toNat_lt
  rw [e, icmp_checksum _ h, Icmp.echoRequest]
  dsimp only
  rw [echo_rest]
  omega

/-- A packet with options and an odd number of data bytes. -/
def sampleIp : Ip :=
  ⟨⟨4, 46, 1, 0xbeef, 2, 185, 17, .tcp, ⟨10, 0, 0, 1⟩, ⟨192, 168, 255, 254⟩, [⟨1, 2, 3, 4⟩, ⟨255, 255, 255, 255⟩], 0⟩,
    .tcp ⟨1234, 80, 0xdeadbeef, 7, 0x112, 8192, 0, [⟨2, 4, 5, 180⟩], [104, 101, 108, 108, 111]⟩⟩

example : ChecksumOk (slice sampleIp.bytes 0 28) := C66_ip sampleIp (by decide)
example : ¬ ChecksumOk ((Ip.icmp ⟨10, 0, 0, 1⟩ ⟨10, 0, 0, 2⟩ 64 (Icmp.echoRequest 7 256 [1, 2, 3])).bytes.drop 20) := by
  rw [C66_icmp _ _ _ _ _ _ (by decide)]; decide
example : ChecksumOk ((Ip.icmp ⟨10, 0, 0, 1⟩ ⟨10, 0, 0, 2⟩ 64 (Icmp.echoRequest 7 255 [1, 2, 3])).bytes.drop 20) := by
  rw [C66_icmp _ _ _ _ _ _ (by decide)]; decide

/-! ## C67: layout and round trip -/

/-- A frame starts with the addresses and the type. -/
theorem C67_ether_layout (f : Frame) : EtherLayout f.header f.body.bytes f.bytes := ether_layout f

/-- The fields of an ARP packet are where RFC 826 puts them. -/
theorem C67_arp_layout (p : Arp) (h : ArpOk p) : ArpLayout p p.bytes := arp_layout p h

/-- The fields of an IPv4 packet are where RFC 791 puts them. -/
theorem C67_ip_layout (p : Ip) (h : IpOk p) : IpLayout p (p.body.bytes p.header) p.bytes := ip_layout p h

/-- The fields of an ICMP packet are where RFC 792 puts them. -/
theorem C67_icmp_layout (p : Icmp) : IcmpLayout p p.bytes := icmp_layout p

/-- The fields of a TCP segment are where RFC 793 puts them; the urgent pointer is not written. -/
theorem C67_tcp_layout (iph : IpHeader) (p : Tcp) (h : TcpOk p) :
    TcpLayout p (p.bytes iph) ∧ field (p.bytes iph) 18 2 = 0 :=
  ⟨tcp_layout iph p h, by rw [Tcp.bytes, tcpRaw]; rfl⟩

/-- A frame is parsed back to what was serialized, whatever follows it: the length is filled in, the urgent pointer is
lost and bytes that follow become data. -/
theorem C67_frame (w : Nat) (hw : w = 32 ∨ w = 64) (f : Frame) (h : FrameOk f) (pad : Bytes) :
    Frame.parse w (f.bytes ++ pad) = .ok (received pad f) := frame_roundtrip w hw f h pad

/-- In particular nothing is lost if nothing follows, the urgent pointer is 0 and the length is right. -/
theorem C67_exact (w : Nat) (hw : w = 32 ∨ w = 64) (f : Frame) (h : FrameOk f)
    (hl : ∀ p, f.body = .ip p → p.header.length = totalLength p ∧ ∀ t, p.body = .tcp t → t.uptr = 0) :
    Frame.parse w f.bytes = .ok f := by
  have e := frame_roundtrip w hw f h []
  rw [List.append_nil] at e
  rw [e]
  congr 1
  obtain ⟨hd, body⟩ := f
  unfold received
  cases body with
  | arp p => rfl
  | raw bs => simp only [List.append_nil]
  | ip p =>
    obtain ⟨h1, h2⟩ := hl p rfl
    dsimp only
    unfold ipReceived
    obtain ⟨iph, b⟩ := p
    dsimp only at h1 h2 ⊢
    rw [← h1]
    cases b with
    | icmp q => unfold bodyReceived; simp only [List.append_nil]
    | raw bs => unfold bodyReceived; simp only [List.append_nil]
    | tcp t =>
      have h3 := h2 t rfl
      unfold bodyReceived
      dsimp only
      rw [List.append_nil, ← h3]

/-- An echo request carries the identifier and the sequence number; reading them back loses the high byte of the
latter. -/
theorem C67_echo (id seq : UInt16) (payload : Bytes) :
    (Icmp.echoRequest id seq payload).identifier = id ∧
    ((Icmp.echoRequest id seq payload).seqNumber.toNat = seq.toNat % 256) ∧
    field (Icmp.echoRequest id seq payload).bytes 4 2 = id.toNat ∧
    field (Icmp.echoRequest id seq payload).bytes 6 2 = seq.toNat := by
  have h1 := id.toNat_lt
  have h2 := seq.toNat_lt
  have e := echo_rest id seq
  have hb : (Icmp.echoRequest id seq payload).bytes = [8, 0] ++ be16 (Icmp.echoRequest id seq payload).checksum ++
      be32 (Icmp.echoRequest id seq payload).rest ++ payload := rfl
  have hr : (Icmp.echoRequest id seq payload).rest.toNat = id.toNat * 65536 + seq.toNat := e
  refine ⟨?_, ?_, ?_, ?_⟩
  · apply UInt16.toNat_inj.mp
    rw [Icmp.identifier, UInt32.toNat_toUInt16, shr16, hr]
    omega
  · rw [Icmp.seqNumber, UInt32.toNat_toUInt16, and_byte, hr]
    omega
  · rw [hb]
    generalize (Icmp.echoRequest id seq payload).rest = x at hr
    show natBE [UInt8.ofNat (x.toNat / 16777216), UInt8.ofNat (x.toNat / 65536 % 256)] = _
    rw [natBE_two, rd16_toNat, UInt8.toNat_ofNat', UInt8.toNat_ofNat']
    omega
  · rw [hb]
    generalize (Icmp.echoRequest id seq payload).rest = x at hr
    show natBE [UInt8.ofNat (x.toNat / 256 % 256), UInt8.ofNat (x.toNat % 256)] = _
    rw [natBE_two, rd16_toNat, UInt8.toNat_ofNat', UInt8.toNat_ofNat']
    omega

/-- The header length of a packet with more than ten options does not fit: such a packet is serialized, and parsing it
panics. -/
theorem C67_too_many_options : ∃ p : Ip, Ip.parse 64 p.bytes = .panic :=
  ⟨⟨⟨4, 0, 0, 0, 0, 0, 64, .udp, ⟨10, 0, 0, 1⟩, ⟨10, 0, 0, 2⟩, List.replicate 11 ⟨1, 1, 1, 1⟩, 0⟩, .raw []⟩, by
    decide +kernel⟩

/-- A frame with all kinds of fields. -/
def sampleFrame : Frame := Frame.ipv4 ⟨2, 3, 5, 7, 11, 13⟩ ⟨17, 19, 23, 29, 31, 37⟩ sampleIp

theorem sampleIp_ok : IpOk sampleIp := by
  refine ⟨?_, ?_, ?_, ?_, ?_, ?_, ⟨?_, ?_⟩, ?_⟩ <;> decide

theorem sampleFrame_ok : FrameOk sampleFrame := ⟨rfl, sampleIp_ok⟩

example : Frame.parse 64 (sampleFrame.bytes ++ [0, 0, 0]) = .ok (received [0, 0, 0] sampleFrame) :=
  C67_frame 64 (.inr rfl) sampleFrame sampleFrame_ok [0, 0, 0]
example : received [0, 0, 0] sampleFrame ≠ sampleFrame := by decide
example : IpLayout sampleIp (sampleIp.body.bytes sampleIp.header) sampleIp.bytes := C67_ip_layout sampleIp sampleIp_ok
example : ArpOk (Arp.ipv4 .request ⟨2, 3, 5, 7, 11, 13⟩ ⟨10, 0, 0, 1⟩ ⟨0, 0, 0, 0, 0, 0⟩ ⟨10, 0, 0, 2⟩) :=
  ⟨trivial, rfl, rfl, rfl, rfl⟩

/-! ## C68: received frames -/

/-- Parsing a received frame panics, and so aborts the client, exactly if the IPv4 header length or the TCP data offset
is below the minimum. -/
theorem C68_panic (w : Nat) (hw : w = 32 ∨ w = 64) (f : Bytes) :
    Frame.parse w f = .panic ↔ BadIpHeaderLength f ∨ BadTcpDataOffset f := deadly_panic w hw f

/-- It is an error exactly if the frame is too short. -/
theorem C68_error (w : Nat) (hw : w = 32 ∨ w = 64) (f : Bytes) : Frame.parse w f = .err ↔ Truncated f := by
  rcases frame_outcome w hw f with ⟨h1, _, h2⟩ | ⟨h1, _, h2⟩ | ⟨h1, _, fr, h2, _⟩
  · rw [h2]; exact ⟨fun _ => h1, fun _ => rfl⟩
  · rw [h2]; exact ⟨fun h => (by cases h), fun h => absurd h h1⟩
  · rw [h2]; exact ⟨fun h => (by cases h), fun h => absurd h h1⟩

/-- All other frames are accepted, with the addresses and the type of the Ethernet header. -/
theorem C68_ok (w : Nat) (hw : w = 32 ∨ w = 64) (f : Bytes) (h1 : ¬ (BadIpHeaderLength f ∨ BadTcpDataOffset f))
    (h2 : ¬ Truncated f) :
    ∃ fr, Frame.parse w f = .ok fr ∧ macNat fr.header.dst = field f 0 6 ∧ macNat fr.header.src = field f 6 6 ∧
      fr.header.etype.toNat = field f 12 2 := by
  rcases frame_outcome w hw f with ⟨h, _, _⟩ | ⟨_, h, _⟩ | ⟨_, _, fr, h3, h4, _⟩
  · exact absurd h h2
  · exact absurd h h1
  · have hl : 14 ≤ f.length := Decidable.byContradiction fun h => h2 (.ethernet (by omega))
    refine ⟨fr, h3, ?_, ?_, ?_⟩ <;> rw [h4]
    · exact atMac_field f 0 (by omega)
    · exact atMac_field f 6 (by omega)
    · exact at16_field f 12 (by omega)

/-- A frame of 34 bytes that aborts the client: an IPv4 header with the header length 0. -/
def killer : Bytes := [0, 0, 0, 0, 0, 0, 0, 0, 0, 0, 0, 0, 0x08, 0x00] ++ List.replicate 20 0

theorem C68_panic_exists : Frame.parse 64 killer = .panic := by decide +kernel

/-- A frame of 54 bytes that aborts the client: a TCP header with the data offset 0. -/
theorem C68_panic_tcp_exists :
    Frame.parse 64 ([0, 0, 0, 0, 0, 0, 0, 0, 0, 0, 0, 0, 0x08, 0x00, 0x45, 0, 0, 40, 0, 0, 0, 0, 64, 6, 0, 0,
      10, 0, 0, 1, 10, 0, 0, 2] ++ List.replicate 20 0) = .panic := by decide +kernel

example : BadIpHeaderLength killer := ⟨⟨by decide, by decide +kernel⟩, by decide, by decide +kernel⟩
example : Truncated (killer.take 33) := .ipHeader ⟨by decide, by decide +kernel⟩ (by decide)

end Verif.Props
