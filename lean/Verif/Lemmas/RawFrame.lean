import Verif.Lemmas.RawParse
namespace Verif.Raw
open Verif Verif.Spec Verif.Spec.Raw

theorem and_15 (v : UInt8) : (v &&& 0x0f).toNat = v.toNat % 16 := by
  rw [UInt8.toNat_and]; exact Nat.and_two_pow_sub_one_eq_mod v.toNat 4

theorem and_3 (v : UInt8) : (v &&& 0x03).toNat = v.toNat % 4 := by
  rw [UInt8.toNat_and]; exact Nat.and_two_pow_sub_one_eq_mod v.toNat 2

theorem and_8191 (v : UInt16) : (v &&& 0x1fff).toNat = v.toNat % 8192 := by
  rw [UInt16.toNat_and]; exact Nat.and_two_pow_sub_one_eq_mod v.toNat 13

theorem shr4 (v : UInt8) : (v >>> 4).toNat = v.toNat / 16 := by
  rw [UInt8.toNat_shiftRight, show ((4 : UInt8).toNat % 8) = 4 from rfl, Nat.shiftRight_eq_div_pow]

theorem shr2 (v : UInt8) : (v >>> 2).toNat = v.toNat / 4 := by
  rw [UInt8.toNat_shiftRight, show ((2 : UInt8).toNat % 8) = 2 from rfl, Nat.shiftRight_eq_div_pow]

theorem shr13 (v : UInt16) : (v >>> 13).toNat = v.toNat / 8192 := by
  rw [UInt16.toNat_shiftRight, show ((13 : UInt16).toNat % 16) = 13 from rfl, Nat.shiftRight_eq_div_pow]

theorem Proto.code_inv (o : Proto) (b : IpBody) (h : BodyOk o b) : Proto.ofCode o.code = o := by
  cases o with
  | icmp => rfl
  | tcp => rfl
  | udp => rfl
  | unknown c =>
    cases b with
    | icmp p => exact absurd h id
    | tcp p => exact absurd h id
    | raw bs => rw [Proto.code, Proto.ofCode, if_neg h.1, if_neg h.2.1, if_neg h.2.2]

theorem ip_header_roundtrip (w : Nat) (hw : w = 32 ∨ w = 64) (p : Ip) (h : IpOk p) (payload : Bytes) :
    IpHeader.parse w (p.header.bytes (bodySize p.body) ++ payload) = .ok { p.header with length := totalLength p } := by
  obtain ⟨hv, hds, he, hfl, hfo, ho, hb, htl⟩ := h
  have hproto := Proto.code_inv _ _ hb
  generalize hd : bodySize p.body = d
  have htot : totalLength p = 20 + p.header.options.length * 4 + d := by rw [totalLength, hd]; omega
  rw [htot] at htl ⊢
  generalize p.header = ip at *
  have hvi := vihl_toNat ip.version (5 + UInt8.ofNat ip.options.length)
  have hde := dscp_toNat ip.dscp ip.ecn
  have hff := foffset_toNat ip.flags ip.foffset
  generalize hg1 : (ip.version <<< 4) ||| ((5 + UInt8.ofNat ip.options.length) &&& 0x0f) = vi at hvi
  generalize hg2 : (ip.dscp <<< 2) ||| (ip.ecn &&& 0x03) = de at hde
  generalize hg3 : (ip.flags.toUInt16 <<< 13) ||| (ip.foffset &&& 0x1fff) = ff at hff
  have hlen : (UInt16.ofNat (20 + ip.options.length * 4 + d)).toNat = 20 + ip.options.length * 4 + d := by
    rw [UInt16.toNat_ofNat']; omega
  generalize hg4 : UInt16.ofNat (20 + ip.options.length * 4 + d) = len at hlen
  have e : ip.bytes d ++ payload = vi :: de :: UInt8.ofNat (len.toNat / 256) :: UInt8.ofNat (len.toNat % 256) ::
      UInt8.ofNat (ip.ident.toNat / 256) :: UInt8.ofNat (ip.ident.toNat % 256) ::
      UInt8.ofNat (ff.toNat / 256) :: UInt8.ofNat (ff.toNat % 256) :: ip.ttl :: ip.protocol.code ::
      UInt8.ofNat ((ipChecksum ip d).toNat / 256) :: UInt8.ofNat ((ipChecksum ip d).toNat % 256) ::
      ip.src.a :: ip.src.b :: ip.src.c :: ip.src.d :: ip.dst.a :: ip.dst.b :: ip.dst.c :: ip.dst.d ::
      (wordBytes ip.options ++ payload) := by
    simp only [IpHeader.bytes, ipRaw, hg1, hg2, hg3, hg4, be16, octets, List.append_assoc, List.cons_append,
      List.nil_append]
  generalize ipChecksum ip d = c at e
  have h5 : (5 + UInt8.ofNat ip.options.length).toNat = 5 + ip.options.length := by
    rw [UInt8.toNat_add, UInt8.toNat_ofNat', show (5 : UInt8).toNat = 5 from rfl]; omega
  rw [h5] at hvi
  have hl : (ip.bytes d ++ payload).length = 20 + 4 * ip.options.length + payload.length := by
    rw [e]
    simp only [List.length_cons, List.length_append, wordBytes_length]
    omega
  have hih : (vi &&& 0x0f).toNat = 5 + ip.options.length := by rw [and_15, hvi]; omega
  obtain ⟨h1, h2, h3⟩ := optionsLen_ok w hw (5 + ip.options.length) (by omega) (by omega)
  rw [show 5 + ip.options.length - 5 = ip.options.length by omega] at h1 h2 h3
  unfold IpHeader.parse
  rw [if_neg (by omega)]
  have ea : at8 (ip.bytes d ++ payload) 0 = vi := by rw [e]; rfl
  dsimp only
  rw [ea, hih, h1, h2, if_neg (by omega), h3]
  dsimp only
  have f1 : vi >>> 4 = ip.version := by apply UInt8.toNat_inj.mp; rw [shr4, hvi]; omega
  have f2 : de >>> 2 = ip.dscp := by apply UInt8.toNat_inj.mp; rw [shr2, hde]; omega
  have f3 : de &&& 0x03 = ip.ecn := by apply UInt8.toNat_inj.mp; rw [and_3, hde]; omega
  have f4 : (ff >>> 13).toUInt8 = ip.flags := by
    apply UInt8.toNat_inj.mp; rw [UInt16.toNat_toUInt8, shr13, hff]; omega
  have f5 : ff &&& 0x1fff = ip.foffset := by apply UInt16.toNat_inj.mp; rw [and_8191, hff]; omega
  rw [e]
  simp only [at8, at16, at32, atIp, List.getD_cons_zero, List.getD_cons_succ, rd16_be16, rd32_be32, ofU32_rd32, f1, f2,
    f3, f4, f5, hproto, List.drop_succ_cons, List.drop_zero, readWords_wordBytes]
  rw [hlen]

theorem bodyLen (b : IpBody) : b.len = bodySize b := by cases b <;> rfl

theorem ip_header_length (ip : IpHeader) (d : Nat) : (ip.bytes d).length = 20 + 4 * ip.options.length := by
  rw [IpHeader.bytes, List.length_append, ipRaw_length, wordBytes_length]

theorem body_roundtrip (w : Nat) (hw : w = 32 ∨ w = 64) (iph h' : IpHeader) (b : IpBody) (hp : h'.protocol = iph.protocol)
    (h : BodyOk iph.protocol b) (pad : Bytes) :
    parseIpBody w h' (b.bytes iph ++ pad) = .ok ⟨h', bodyReceived pad b⟩ := by
  unfold parseIpBody
  rw [hp]
  cases hq : iph.protocol with
  | icmp =>
    rw [hq] at h
    cases b with
    | icmp p => dsimp only [IpBody.bytes]; rw [icmp_roundtrip p h pad]; rfl
    | tcp p => exact absurd h id
    | raw bs => exact absurd h id
  | tcp =>
    rw [hq] at h
    cases b with
    | icmp p => exact absurd h id
    | tcp p => dsimp only [IpBody.bytes]; rw [tcp_roundtrip w hw iph p h pad]; rfl
    | raw bs => exact absurd h id
  | udp =>
    rw [hq] at h
    cases b with
    | icmp p => exact absurd h id
    | tcp p => exact absurd h id
    | raw bs => rfl
  | unknown c =>
    rw [hq] at h
    cases b with
    | icmp p => exact absurd h id
    | tcp p => exact absurd h id
    | raw bs => rfl

theorem ip_roundtrip (w : Nat) (hw : w = 32 ∨ w = 64) (p : Ip) (h : IpOk p) (pad : Bytes) :
    Ip.parse w (p.bytes ++ pad) = .ok (ipReceived pad p) := by
  have e : p.bytes ++ pad = p.header.bytes (bodySize p.body) ++ (p.body.bytes p.header ++ pad) := by
    rw [Ip.bytes, bodyLen, List.append_assoc]
  unfold Ip.parse
  rw [e, if_neg (by rw [List.length_append, ip_header_length]; omega), ip_header_roundtrip w hw p h]
  dsimp only
  rw [show 20 + p.header.options.length * 4 = (p.header.bytes (bodySize p.body)).length by
    rw [ip_header_length]; omega, List.drop_left]
  exact body_roundtrip w hw p.header { p.header with length := totalLength p } p.body rfl h.body pad

theorem ether_header_roundtrip (h : EtherHeader) : EtherHeader.parse h.bytes = h := by
  have e : at16 h.bytes 12 = h.etype := rd16_be16 h.etype
  unfold EtherHeader.parse
  rw [e]
  rfl

theorem frame_roundtrip (w : Nat) (hw : w = 32 ∨ w = 64) (f : Frame) (h : FrameOk f) (pad : Bytes) :
    Frame.parse w (f.bytes ++ pad) = .ok (received pad f) := by
  have hl : f.header.bytes.length = 14 := rfl
  have e : f.bytes ++ pad = f.header.bytes ++ (f.body.bytes ++ pad) := by rw [Frame.bytes, List.append_assoc]
  unfold Frame.parse
  rw [e, if_neg (by rw [List.length_append, hl]; omega), ← hl, List.take_left, List.drop_left, ether_header_roundtrip]
  unfold parseEtherBody
  unfold FrameOk at h
  obtain ⟨hd, b⟩ := f
  dsimp only at h ⊢
  cases b with
  | arp p =>
    dsimp only at h
    rw [h.1, show EtherType.ofCode 0x0806 = .arp from rfl]
    dsimp only [EtherBody.bytes]
    rw [arp_roundtrip p h.2 pad]
    rfl
  | ip p =>
    dsimp only at h
    rw [h.1, show EtherType.ofCode 0x0800 = .ipv4 from rfl]
    dsimp only [EtherBody.bytes]
    rw [ip_roundtrip w hw p h.2 pad]
    rfl
  | raw bs =>
    dsimp only at h
    rw [EtherType.ofCode, if_neg h.1, if_neg h.2]
    rfl

end Verif.Raw
